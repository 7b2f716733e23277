import Verif.Proofs.Unique
import Verif.Proofs.Scalars
/-
Helper lemmas for Props/Tree.lean.
-/
namespace Flatland
open Spec

section
variable [Runtime]

theorem restored_absent (p : Bool) (f : Schema) : restored p f .absent = .absent := by
  cases f <;> rfl

theorem sameBy_absent (R : ScalarState → ScalarState → Prop) (p : Bool) (f : Schema) {k : Elem} (h : k = .absent) :
    SameBy R k (restored p f k) := by
  subst h; rw [restored_absent]; simp [SameBy]

mutual
theorem restored_same (R : ScalarState → ScalarState → Prop) (p : Bool) : ∀ (s : Schema) (e : Elem), Conforms s e →
    EachScalar (ReadsBack R) p s e → SameBy R e (restored p s e)
  | .scalar h t, .scalar n st, hc, hs => by
    simp only [EachScalar, ReadsBack] at hs
    simp only [restored, SameBy]
    exact ⟨trivial, hs⟩
  | .dict h mode po fs, .dict n ks, hc, hs => by
    simp only [Conforms, EachScalar] at hc hs
    simp only [restored, SameBy]
    exact ⟨trivial, restoredAll_same R p mode fs ks hc.2 hs⟩
  | .list h prune max m, .list n ks, hc, hs => by
    simp only [Conforms, EachScalar] at hc hs
    simp only [restored, SameBy]
    refine ⟨trivial, ?_⟩
    have : ∀ ks : List Elem, (∀ k ∈ ks, SameBy R k (restored (p || prune) m k)) → SameByAll R ks (ks.map (restored (p || prune) m)) := by
      intro ks
      induction ks with
      | nil => intro _; simp [SameByAll]
      | cons k ks ih =>
        intro h
        simp only [List.map_cons, SameByAll]
        exact ⟨h k (by simp), ih fun k hk => h k (by simp [hk])⟩
    exact this ks fun k hk => restored_same R (p || prune) m k (hc.2 k hk) (hs k hk)
  | .array h prune m, .array n ks, hc, hs => by
    simp only [Conforms, EachScalar] at hc hs
    simp only [restored, SameBy]
    refine ⟨trivial, ?_⟩
    have : ∀ ks : List Elem, (∀ k ∈ ks, SameBy R k (restored false m k)) → SameByAll R ks (ks.map (restored false m)) := by
      intro ks
      induction ks with
      | nil => intro _; simp [SameByAll]
      | cons k ks ih =>
        intro h
        simp only [List.map_cons, SameByAll]
        exact ⟨h k (by simp), ih fun k hk => h k (by simp [hk])⟩
    exact this ks fun k hk => restored_same R false m k (hc.2 k hk) (hs k hk)
  | .scalar .., .dict .., hc, _ | .scalar .., .list .., hc, _ | .scalar .., .array .., hc, _ | .scalar .., .absent, hc, _
  | .dict .., .scalar .., hc, _ | .dict .., .list .., hc, _ | .dict .., .array .., hc, _ | .dict .., .absent, hc, _
  | .list .., .dict .., hc, _ | .list .., .scalar .., hc, _ | .list .., .array .., hc, _ | .list .., .absent, hc, _
  | .array .., .dict .., hc, _ | .array .., .list .., hc, _ | .array .., .scalar .., hc, _ | .array .., .absent, hc, _ => by
    simp [Conforms] at hc
theorem restoredAll_same (R : ScalarState → ScalarState → Prop) (p : Bool) (mode : DictMode) : ∀ (fs : List Schema) (ks : List Elem),
    ConformsAll mode fs ks → EachScalarAll (ReadsBack R) p fs ks → SameByAll R ks (restoredAll p fs ks)
  | [], [], _, _ => by simp [restoredAll, SameByAll]
  | f :: fs, k :: ks, hc, hs => by
    simp only [ConformsAll, EachScalarAll] at hc hs
    simp only [restoredAll, SameByAll]
    refine ⟨?_, restoredAll_same R p mode fs ks hc.2 hs.2⟩
    rcases hc.1 with ⟨h0, _⟩ | hcf
    · exact sameBy_absent R p f h0
    · exact restored_same R p f k hcf hs.1
  | [], _ :: _, hc, _ | _ :: _, [], hc, _ => by simp [ConformsAll] at hc
end

omit [Runtime] in
theorem agree_of_valuesFor {ps qs : List (PStr × PStr)} (h : ∀ k, valuesFor k ps = valuesFor k qs) :
    Agree (fun _ => True) (ps.map fun p => (some p.1, p.2)) (qs.map fun p => (some p.1, p.2)) := by
  intro key _
  rw [List.filter_map, List.filter_map]
  cases key with
  | none =>
    congr 1
    rw [List.filter_eq_nil_iff.2, List.filter_eq_nil_iff.2] <;> simp
  | some k =>
    have := h k
    simp only [valuesFor] at this
    have e : ((fun x : FPair => x.1 == some k) ∘ fun p : PStr × PStr => ((some p.1, p.2) : FPair)) = fun p => p.1 == k := by
      funext p
      simp only [Function.comp]
      rw [Bool.eq_iff_iff]
      simp
    rw [e, this]

/-! ### leaves by position -/

omit [Runtime] in
theorem elemAt_cons (e : Elem) (i : Nat) (ps : Pos) (he : e ≠ .absent) :
    elemAt e (i :: ps) = (match e.kids[i]? with | some k => elemAt k ps | none => none) := by
  cases e <;> first | exact absurd rfl he | rfl

omit [Runtime] in
theorem elemAt_nil (e : Elem) (he : e ≠ .absent) : elemAt e [] = some e := by
  cases e <;> simp_all [elemAt]

omit [Runtime] in
theorem mem_leaves_of : ∀ (pos : Pos) (e : Elem) (n : Option PStr) (st : ScalarState),
    elemAt e pos = some (.scalar n st) → ⟨pos, namesAt e pos, st⟩ ∈ leaves e := by
  intro pos
  induction pos with
  | nil =>
    intro e n st h
    cases e with
    | scalar m st' =>
      simp only [elemAt, Option.some.injEq, Elem.scalar.injEq] at h
      simp [leaves, namesAt, Elem.name, h.2]
    | _ => simp [elemAt] at h
  | cons i ps ih =>
    intro e n st h
    cases e with
    | absent => simp [elemAt] at h
    | scalar m st' => simp [elemAt, Elem.kids] at h
    | dict m ks =>
      simp only [elemAt, Elem.kids] at h
      split at h
      · rename_i k hk
        simp only [leaves, List.mem_map]
        refine ⟨⟨i :: ps, namesAt k ps, st⟩, mem_leavesKids.2 ⟨i, k, _, hk, ih k n st h, by simp⟩, ?_⟩
        simp [namesAt, Elem.kids, Elem.name, hk]
      · simp at h
    | array m ks =>
      simp only [elemAt, Elem.kids] at h
      split at h
      · rename_i k hk
        simp only [leaves, List.mem_map]
        refine ⟨⟨i :: ps, namesAt k ps, st⟩, mem_leavesKids.2 ⟨i, k, _, hk, ih k n st h, by simp⟩, ?_⟩
        simp [namesAt, Elem.kids, Elem.name, hk]
      · simp at h
    | list m ks =>
      simp only [elemAt, Elem.kids] at h
      split at h
      · rename_i k hk
        simp only [leaves, List.mem_map]
        refine ⟨⟨i :: ps, some (decimal i) :: namesAt k ps, st⟩, mem_leavesSlots.2 ⟨i, k, _, hk, ih k n st h, by simp⟩, ?_⟩
        simp [namesAt, hk]
      · simp at h


end

/-! ### levels by position -/

mutual
/-- positions at depth `d`, in document order -/
def posLev : Nat → Elem → List Pos
  | 0, _ => [[]]
  | d + 1, .dict _ ks | d + 1, .list _ ks | d + 1, .array _ ks => posKids d 0 ks
  | _ + 1, _ => []
/-- see `posLev` -/
def posKids : Nat → Nat → List Elem → List Pos
  | _, _, [] => []
  | d, i, k :: ks => (if k.present then (posLev d k).map (i :: ·) else []) ++ posKids d (i + 1) ks
end

/-- only Dicts may have missing children -/
def NoHoles : Elem → Prop
  | .list _ ks | .array _ ks => ∀ k ∈ ks, k.present = true ∧ NoHoles k
  | .dict _ ks => ∀ k ∈ ks, NoHoles k
  | _ => True

theorem mem_posKids {d i0 : Nat} {ks : List Elem} {q : Pos} :
    q ∈ posKids d i0 ks ↔ ∃ j k r, ks[j]? = some k ∧ k.present = true ∧ r ∈ posLev d k ∧ q = (i0 + j) :: r := by
  induction ks generalizing i0 with
  | nil => simp [posKids]
  | cons k ks ih =>
    simp only [posKids, List.mem_append, ih]
    constructor
    · rintro (h | ⟨j, k', r, hk', hp, hr, rfl⟩)
      · split at h
        · rename_i hp
          obtain ⟨r, hr, rfl⟩ := List.mem_map.1 h
          exact ⟨0, k, r, rfl, hp, hr, rfl⟩
        · simp at h
      · exact ⟨j + 1, k', r, by simpa using hk', hp, hr, by congr 1; omega⟩
    · rintro ⟨j, k', r, hk', hp, hr, rfl⟩
      cases j with
      | zero =>
        simp only [List.getElem?_cons_zero, Option.some.injEq] at hk'
        subst hk'
        left; rw [if_pos hp]; exact List.mem_map.2 ⟨r, hr, rfl⟩
      | succ j => exact .inr ⟨j, k', r, by simpa using hk', hp, hr, by congr 1; omega⟩

theorem posLev_succ (d : Nat) (e : Elem) : posLev (d + 1) e = posKids d 0 e.kids := by
  cases e <;> simp [posLev, Elem.kids, posKids]

theorem elemAt_absent (q : Pos) : elemAt .absent q = none := by simp [elemAt]

theorem present_iff {k : Elem} : k.present = true ↔ k ≠ .absent := by cases k <;> simp [Elem.present]

theorem mem_posLev : ∀ (d : Nat) (e : Elem), e ≠ .absent → ∀ q, q ∈ posLev d e ↔ q.length = d ∧ (elemAt e q).isSome
  | 0, e, he, q => by
    simp only [posLev, List.mem_singleton, List.length_eq_zero_iff]
    constructor
    · rintro rfl; exact ⟨rfl, by rw [elemAt_nil e he]; rfl⟩
    · exact fun h => h.1
  | d + 1, e, he, q => by
    rw [posLev_succ, mem_posKids]
    cases q with
    | nil => simp
    | cons i ps =>
      rw [elemAt_cons e i ps he]
      constructor
      · rintro ⟨j, k, r, hk, hp, hr, heq⟩
        simp only [Nat.zero_add, List.cons.injEq] at heq
        obtain ⟨rfl, rfl⟩ := heq
        have := (mem_posLev d k (present_iff.1 hp) ps).1 hr
        rw [hk]
        exact ⟨by simp [this.1], this.2⟩
      · rintro ⟨hl, h⟩
        cases hk : e.kids[i]? with
        | none => rw [hk] at h; simp at h
        | some k =>
          rw [hk] at h
          have hka : k ≠ .absent := by rintro rfl; simp [elemAt] at h
          exact ⟨i, k, ps, hk, present_iff.2 hka, (mem_posLev d k hka ps).2 ⟨by simpa using hl, h⟩, by simp⟩

theorem posLev_sorted : ∀ (d : Nat) (e : Elem), (posLev d e).Pairwise (· < ·)
  | 0, e => by simp [posLev]
  | d + 1, e => by
    rw [posLev_succ]
    have : ∀ (ks : List Elem) (i : Nat), (posKids d i ks).Pairwise (· < ·) := by
      intro ks
      induction ks with
      | nil => simp [posKids]
      | cons k ks ih =>
        intro i
        simp only [posKids]
        rw [List.pairwise_append]
        refine ⟨?_, ih (i + 1), ?_⟩
        · split
          · rw [List.pairwise_map]
            exact (posLev_sorted d k).imp fun h => List.cons_lt_cons_iff.2 (.inr ⟨rfl, h⟩)
          · simp
        · intro a ha b hb
          obtain ⟨j, k', r, _, _, _, rfl⟩ := mem_posKids.1 hb
          split at ha
          · obtain ⟨r', _, rfl⟩ := List.mem_map.1 ha
            exact List.cons_lt_cons_iff.2 (.inl (by omega))
          · simp at ha
    exact this e.kids 0

theorem namesAt_cons_list (n ks) (i : Nat) (ps : Pos) {k : Elem} (hk : ks[i]? = some k) :
    namesAt (.list n ks) (i :: ps) = n :: some (decimal i) :: namesAt k ps := by simp [namesAt, hk]

mutual
theorem conforms_noHoles : ∀ (s : Schema) (e : Elem), Conforms s e → NoHoles e
  | .scalar .., .scalar .., _ => by simp [NoHoles]
  | .dict h mode po fs, .dict n ks, hc => by
    simp only [Conforms] at hc
    simp only [NoHoles]
    exact conformsAll_noHoles mode fs ks hc.2
  | .list h _ _ m, .list n ks, hc => by
    simp only [Conforms] at hc
    simp only [NoHoles]
    exact fun k hk => ⟨present_iff.2 (conforms_not_absent (hc.2 k hk)), conforms_noHoles m k (hc.2 k hk)⟩
  | .array h _ m, .array n ks, hc => by
    simp only [Conforms] at hc
    simp only [NoHoles]
    exact fun k hk => ⟨present_iff.2 (conforms_not_absent (hc.2 k hk)), conforms_noHoles m k (hc.2 k hk)⟩
  | .scalar .., .dict .., hc | .scalar .., .list .., hc | .scalar .., .array .., hc | .scalar .., .absent, hc
  | .dict .., .scalar .., hc | .dict .., .list .., hc | .dict .., .array .., hc | .dict .., .absent, hc
  | .list .., .dict .., hc | .list .., .scalar .., hc | .list .., .array .., hc | .list .., .absent, hc
  | .array .., .dict .., hc | .array .., .list .., hc | .array .., .scalar .., hc | .array .., .absent, hc => by
    simp [Conforms] at hc
theorem conformsAll_noHoles (mode : DictMode) : ∀ (fs : List Schema) (ks : List Elem), ConformsAll mode fs ks → ∀ k ∈ ks, NoHoles k
  | [], [], _ => by simp
  | f :: fs, k :: ks, hc => by
    simp only [ConformsAll] at hc
    intro k' hk'
    rcases List.mem_cons.1 hk' with h | h
    · rcases hc.1 with ⟨h0, _⟩ | h0
      · rw [h, h0]; simp [NoHoles]
      · rw [h]; exact conforms_noHoles f k h0
    · exact conformsAll_noHoles mode fs ks hc.2 k' h
  | [], _ :: _, hc | _ :: _, [], hc => by simp [ConformsAll] at hc
end

theorem lev_pos : ∀ (d : Nat) (q : NamePath) (e : Elem), NoHoles e → e ≠ .absent →
    (lev d [(q ++ [e.name], e)]).map (fun x => (x.1, some x.2)) = (posLev d e).map fun r => (q ++ namesAt e r, elemAt e r)
  | 0, q, e, hn, he => by
    simp only [lev, posLev, List.map_cons, List.map_nil, elemAt_nil e he]
    cases e <;> rfl
  | d + 1, q, e, hn, he => by
    have hk : ∀ (p : NamePath) (i : Nat) (ks : List Elem) (f : Nat → Pos → NamePath × Option Elem), (∀ k ∈ ks, NoHoles k) →
        (∀ j k r, ks[j]? = some k → f (i + j) r = (p ++ namesAt k r, elemAt k r)) →
        (lev d ((ks.filter Elem.present).map fun k => (p ++ [k.name], k))).map (fun x => (x.1, some x.2)) =
        (posKids d i ks).map fun r => f (r.headD 0) r.tail := by
      intro p i ks f hks hf
      induction ks generalizing i with
      | nil => simp [posKids, lev_nil]
      | cons k ks ihk =>
        have ih := ihk (i + 1) (fun k hk => hks k (by simp [hk])) (fun j k r hj => by
          rw [← hf (j + 1) k r (by simpa using hj)]; congr 1; omega)
        simp only [posKids, List.map_append, ← ih]
        by_cases hp : k.present = true
        · rw [List.filter_cons_of_pos hp, List.map_cons, ← List.singleton_append, lev_append, List.map_append,
            lev_pos d p k (hks k (by simp)) (present_iff.1 hp), if_pos hp, List.map_map]
          congr 1
          apply List.map_congr_left
          intro r _
          rw [← hf 0 k r (by simp)]
          simp
        · rw [List.filter_cons_of_neg hp, if_neg hp]; simp
    have hs : ∀ (p : NamePath) (i : Nat) (ks : List Elem) (f : Nat → Pos → NamePath × Option Elem),
        (∀ k ∈ ks, k.present = true ∧ NoHoles k) →
        (∀ j k r, ks[j]? = some k → f (i + j) r = (p ++ some (decimal (i + j)) :: namesAt k r, elemAt k r)) →
        (lev d (slotKids p i ks)).map (fun x => (x.1, some x.2)) =
        (posKids d i ks).map fun r => f (r.headD 0) r.tail := by
      intro p i ks f hks hf
      induction ks generalizing i with
      | nil => simp [posKids, lev_nil, slotKids]
      | cons k ks ihk =>
        have ih := ihk (i + 1) (fun k hk => hks k (by simp [hk])) (fun j k r hj => by
          have := hf (j + 1) k r (by simpa using hj)
          rw [show i + (j + 1) = i + 1 + j by omega] at this
          exact this)
        have hp := hks k (by simp)
        simp only [posKids, List.map_append, ← ih]
        have h1 := lev_pos d (p ++ [some (decimal i)]) k hp.2 (present_iff.1 hp.1)
        simp only [List.append_assoc, List.cons_append, List.nil_append] at h1
        rw [slotKids, ← List.singleton_append, lev_append, List.map_append, h1, if_pos hp.1, List.map_map]
        congr 1
        apply List.map_congr_left
        intro r _
        have := hf 0 k r (by simp)
        simp only [Nat.add_zero] at this
        simp [this]
    rw [posLev_succ]
    simp only [lev, List.flatMap_cons, List.flatMap_nil, List.append_nil]
    cases e with
    | absent => exact absurd rfl he
    | scalar n st => simp [childrenOf, lev_nil, Elem.kids, posKids]
    | dict n ks =>
      simp only [NoHoles] at hn
      refine (hk (q ++ [n]) 0 ks (fun i r => (q ++ namesAt (.dict n ks) (i :: r), elemAt (.dict n ks) (i :: r))) hn ?_).trans ?_
      · intro j k r hj
        simp [namesAt, elemAt, Elem.kids, Elem.name, hj]
      · apply List.map_congr_left
        intro r hr
        obtain ⟨j, k, r, _, _, _, rfl⟩ := mem_posKids.1 hr
        rfl
    | array n ks =>
      simp only [NoHoles] at hn
      refine (hk (q ++ [n]) 0 ks (fun i r => (q ++ namesAt (.array n ks) (i :: r), elemAt (.array n ks) (i :: r)))
        (fun k hk => (hn k hk).2) ?_).trans ?_
      · intro j k r hj
        simp [namesAt, elemAt, Elem.kids, Elem.name, hj]
      · apply List.map_congr_left
        intro r hr
        obtain ⟨j, k, r, _, _, _, rfl⟩ := mem_posKids.1 hr
        rfl
    | list n ks =>
      simp only [NoHoles] at hn
      refine (hs (q ++ [n]) 0 ks (fun i r => (q ++ namesAt (.list n ks) (i :: r), elemAt (.list n ks) (i :: r))) hn ?_).trans ?_
      · intro j k r hj
        simp [namesAt, elemAt, Elem.kids, hj]
      · apply List.map_congr_left
        intro r hr
        obtain ⟨j, k, r, _, _, _, rfl⟩ := mem_posKids.1 hr
        rfl

/-- level by level, then lexicographic -/
def LevLt (a b : Pos) : Prop := a.length < b.length ∨ (a.length = b.length ∧ a < b)

theorem posLev_length : ∀ (d : Nat) (e : Elem), ∀ q ∈ posLev d e, q.length = d
  | 0, e => by simp [posLev]
  | d + 1, e => by
    intro q hq
    rw [posLev_succ] at hq
    obtain ⟨j, k, r, _, _, hr, rfl⟩ := mem_posKids.1 hq
    simp [posLev_length d k r hr]

theorem levels_sorted (e : Elem) (n : Nat) : ((List.range n).flatMap fun d => posLev (d + 1) e).Pairwise LevLt := by
  induction n with
  | zero => simp
  | succ n ih =>
    rw [List.range_succ, List.flatMap_append, List.pairwise_append]
    refine ⟨ih, ?_, ?_⟩
    · simp only [List.flatMap_cons, List.flatMap_nil, List.append_nil]
      have h := posLev_sorted (n + 1) e
      have hl := posLev_length (n + 1) e
      revert h hl
      generalize posLev (n + 1) e = L
      intro h hl
      induction L with
      | nil => simp
      | cons a L ihL =>
        rw [List.pairwise_cons] at h ⊢
        refine ⟨fun b hb => .inr ⟨?_, h.1 b hb⟩, ihL h.2 fun q hq => hl q (by simp [hq])⟩
        rw [hl a (by simp), hl b (by simp [hb])]
    · intro a ha b hb
      simp only [List.mem_flatMap, List.mem_range] at ha
      obtain ⟨d, hd, ha⟩ := ha
      simp only [List.flatMap_cons, List.flatMap_nil, List.append_nil] at hb
      have := posLev_length _ e a ha
      have := posLev_length _ e b hb
      exact .inl (by omega)

theorem sorted_nodup {ps : List Pos} (h : ps.Pairwise LevLt) : ps.Nodup := by
  refine h.imp ?_
  rintro a b (h | ⟨_, h⟩) rfl
  · omega
  · exact List.lt_irrefl _ h

theorem builtin_text_cases [Runtime] (b : Builtin) (x : PStr) :
    ∃ st' ok, ∀ st, scalarSet b.type st (.str x) = (st', .ok ok) := by
  rcases adapt_text b x with h | ⟨v, h, hv, he⟩
  · exact ⟨_, _, fun st => scalarSet_text_err (st := st) h⟩
  · obtain ⟨u, hu⟩ := builtin_serialize_ok b v
    exact ⟨_, _, fun st => scalarSet_ok (st := st) h hv hu⟩

theorem builtin_text_indep [Runtime] (b : Builtin) (st st' : ScalarState) (x : PStr) :
    scalarSet b.type st (.str x) = scalarSet b.type st' (.str x) := by
  obtain ⟨a, ok, h⟩ := builtin_text_cases b x
  rw [h, h]

theorem builtin_text_ok [Runtime] (b : Builtin) (st : ScalarState) (x : PStr) :
    ∃ ok, (scalarSet b.type st (.str x)).2 = .ok ok := by
  obtain ⟨a, ok, h⟩ := builtin_text_cases b x
  rw [h]; exact ⟨ok, rfl⟩

end Flatland
