import Verif.Proofs.TreeProps
import Verif.Proofs.SetFlat
import Verif.Spec.Order
/-! Helper lemmas for C10 on arbitrary submissions. -/
namespace Flatland
open Spec

/-- the two submissions agree key by key -/
abbrev SameKeys (ps qs : List FPair) : Prop := Agree (fun _ => True) ps qs

theorem sameKeys_mem {ps qs : List FPair} (h : SameKeys ps qs) (x : FPair) : x ∈ ps ↔ x ∈ qs := agree_mem h trivial

theorem sameKeys_isEmpty {ps qs : List FPair} (h : SameKeys ps qs) : ps.isEmpty = qs.isEmpty := by
  rw [Bool.eq_iff_iff, List.isEmpty_iff, List.isEmpty_iff]
  constructor <;> rintro rfl
  · exact List.eq_nil_iff_forall_not_mem.2 fun x hx => by simpa using (sameKeys_mem h x).2 hx
  · exact List.eq_nil_iff_forall_not_mem.2 fun x hx => by simpa using (sameKeys_mem h x).1 hx

/-- Rewriting keys one to one, and dropping pairs, keeps the agreement. -/
theorem sameKeys_filterMap {ps qs : List FPair} (h : SameKeys ps qs) (g : FPair → Option FPair)
    (hg : ∀ x ∈ ps, ∀ y ∈ ps, ∀ x' y', g x = some x' → g y = some y' → x'.1 = y'.1 → x.1 = y.1) :
    SameKeys (ps.filterMap g) (qs.filterMap g) := by
  intro k _
  have key : ∀ (l : List FPair), (∀ x, x ∈ l ↔ x ∈ ps) → ∀ k0, (∃ x ∈ ps, x.1 = k0 ∧ ∃ x', g x = some x' ∧ x'.1 = k) →
      (l.filterMap g).filter (fun x => x.1 == k) = ((l.filter fun x => x.1 == k0).filterMap g).filter (fun x => x.1 == k) := by
    intro l hl k0 ⟨x, hx, hx0, x', hx', hk⟩
    have : ∀ (m : List FPair), (∀ y ∈ m, y ∈ ps) →
        (m.filterMap g).filter (fun x => x.1 == k) = ((m.filter fun x => x.1 == k0).filterMap g).filter (fun x => x.1 == k) := by
      intro m hm
      induction m with
      | nil => rfl
      | cons y ys ih =>
        have ih := ih fun z hz => hm z (by simp [hz])
        cases hgy : g y with
        | none =>
          rw [List.filterMap_cons_none hgy, ih]
          by_cases hy : (y.1 == k0) = true
          · rw [List.filter_cons, if_pos hy, List.filterMap_cons_none hgy]
          · rw [List.filter_cons (x := y), if_neg hy]
        | some y' =>
          rw [List.filterMap_cons_some hgy]
          by_cases hyk : (y'.1 == k) = true
          · have e : y.1 = k0 := by
              rw [← hx0]
              exact hg y (hm y (by simp)) x hx y' x' hgy hx' (by rw [hk]; simpa using hyk)
            rw [List.filter_cons (x := y), if_pos (by simpa using e), List.filterMap_cons_some hgy,
              List.filter_cons, if_pos hyk, List.filter_cons, if_pos hyk, ih]
          · rw [List.filter_cons, if_neg hyk, ih]
            by_cases hy : (y.1 == k0) = true
            · rw [List.filter_cons (x := y), if_pos hy, List.filterMap_cons_some hgy, List.filter_cons (x := y'), if_neg hyk]
            · rw [List.filter_cons (x := y), if_neg hy]
    exact this l fun y hy => (hl y).1 hy
  by_cases hex : ∃ x ∈ ps, ∃ x', g x = some x' ∧ x'.1 = k
  · obtain ⟨x, hx, hx'⟩ := hex
    rw [key ps (fun _ => Iff.rfl) x.1 ⟨x, hx, rfl, hx'⟩, key qs (fun y => (sameKeys_mem h y).symm) x.1 ⟨x, hx, rfl, hx'⟩, h x.1 trivial]
  · have none_ : ∀ l : List FPair, (∀ x ∈ l, x ∈ ps) → (l.filterMap g).filter (fun x => x.1 == k) = [] := by
      intro l hl
      rw [List.filter_eq_nil_iff]
      intro y hy hyk
      obtain ⟨x, hx, hxy⟩ := List.mem_filterMap.1 hy
      exact hex ⟨x, hl x hx, y, hxy, by simpa using hyk⟩
    rw [none_ ps (fun x hx => hx), none_ qs (fun x hx => (sameKeys_mem h x).2 hx)]

theorem sameKeys_filter {ps qs : List FPair} (h : SameKeys ps qs) (q : FPair → Bool) : SameKeys (ps.filter q) (qs.filter q) := agree_filter h q

theorem find_filter_head {α} (p : α → Bool) (l : List α) : l.find? p = (l.filter p).head? := by
  simp

/-! ### the passes over the pairs, as one expression -/

/-- some key is None -/
def hasNone (ps : List FPair) : Bool := ps.any fun x => x.1 == none

theorem sameKeys_hasNone {ps qs : List FPair} (h : SameKeys ps qs) : hasNone ps = hasNone qs := by
  rw [Bool.eq_iff_iff]
  simp only [hasNone, List.any_eq_true]
  exact ⟨fun ⟨x, hx, e⟩ => ⟨x, (sameKeys_mem h x).1 hx, e⟩, fun ⟨x, hx, e⟩ => ⟨x, (sameKeys_mem h x).2 hx, e⟩⟩

/-- a key below a prefix, with the prefix removed -/
def below (pre : PStr) (x : FPair) : Option FPair :=
  match x.1 with
  | none => none
  | some k => if startsWith k pre then some (some (k.drop pre.length), x.2) else none

theorem possibles_go (pre : PStr) (ps : List FPair) :
    dictPossibles.go pre ps = if hasNone ps then .error .attribute else .ok (ps.filterMap (below pre)) := by
  induction ps with
  | nil => rfl
  | cons x xs ih =>
    obtain ⟨k, v⟩ := x
    cases k with
    | none => simp [dictPossibles.go, hasNone]
    | some k =>
      simp only [dictPossibles.go, ih]
      have e : hasNone ((some k, v) :: xs) = hasNone xs := by simp [hasNone]
      rw [e]
      cases hasNone xs with
      | true => rfl
      | false =>
        simp only [Bool.false_eq_true, if_false, bind, Except.bind]
        by_cases hs : startsWith k pre = true
        · rw [if_pos hs, List.filterMap_cons_some (b := (some (k.drop pre.length), v)) (by simp [below, hs])]
        · rw [if_neg hs, List.filterMap_cons_none (by simp [below, hs])]

theorem accum_some (f : PStr) (ps : List FPair) :
    accumField (some f) ps = if hasNone ps then .error .attribute else .ok (ps.filter fun x => (x.1.map fun k => startsWith k f).getD false) := by
  induction ps with
  | nil => rfl
  | cons x xs ih =>
    obtain ⟨k, v⟩ := x
    cases k with
    | none => simp [accumField, hasNone]
    | some k =>
      simp only [accumField, ih]
      have e : hasNone ((some k, v) :: xs) = hasNone xs := by simp [hasNone]
      rw [e]
      cases hasNone xs with
      | true => rfl
      | false =>
        simp only [Bool.false_eq_true, if_false, bind, Except.bind]
        by_cases hs : startsWith k f = true
        · rw [if_pos hs, List.filter_cons_of_pos (by simpa using hs)]
        · rw [if_neg hs, List.filter_cons_of_neg (by simpa using hs)]

section
variable [Runtime]

theorem listMatches_eq (sep : PStr) (name : Option PStr) (prune : Bool) (ps : List FPair) :
    listMatches sep name prune ps =
      if hasNone (ps.filter fun x => !(x.2 == [] && prune)) then .error .type
      else .ok ((ps.filter fun x => !(x.2 == [] && prune)).filterMap fun x => (x.1.bind (idxMatch sep name)).map fun r => (r.1, (r.2, x.2))) := by
  induction ps with
  | nil => rfl
  | cons x xs ih =>
    obtain ⟨k, v⟩ := x
    simp only [listMatches]
    by_cases hv : (v == [] && prune) = true
    · rw [if_pos hv, List.filter_cons_of_neg (by simpa using hv), ih]
    · rw [if_neg hv, List.filter_cons_of_pos (by rw [Bool.not_eq_true] at hv; rw [hv]; rfl)]
      cases k with
      | none => simp [hasNone]
      | some k =>
        have e : ∀ l, hasNone ((some k, v) :: l) = hasNone l := by intro l; simp [hasNone]
        rw [e]
        simp only [ih]
        cases hasNone (xs.filter fun x => !(x.2 == [] && prune)) with
        | true => rfl
        | false =>
          simp only [Bool.false_eq_true, if_false, bind, Except.bind]
          cases hi : idxMatch sep name k with
          | none => rw [List.filterMap_cons_none (by simp [hi])]
          | some r =>
            obtain ⟨i, ck⟩ := r
            rw [List.filterMap_cons_some (b := (i, (ck, v))) (by simp [hi])]

theorem subPairs_filterMap (sep : PStr) (name : Option PStr) (i : Nat) (l : List FPair) :
    subPairs (l.filterMap fun x => (x.1.bind (idxMatch sep name)).map fun r => (r.1, (r.2, x.2))) i =
      l.filterMap fun x => (x.1.bind (idxMatch sep name)).bind fun r => if r.1 = i then some (r.2, x.2) else none := by
  induction l with
  | nil => rfl
  | cons x xs ih =>
    cases hx : x.1.bind (idxMatch sep name) with
    | none => rw [List.filterMap_cons_none (by simp [hx]), List.filterMap_cons_none (by simp [hx]), ih]
    | some r =>
      rw [List.filterMap_cons_some (b := (r.1, (r.2, x.2))) (by simp [hx])]
      by_cases hr : r.1 = i
      · rw [List.filterMap_cons_some (b := (r.2, x.2)) (by simp [hx, hr]), ← ih]
        simp [subPairs, hr]
      · rw [List.filterMap_cons_none (by simp [hx, hr]), ← ih]
        simp [subPairs, hr]

/-! ### tidy keys -/

/-- digits 0-9 without a superfluous zero are the one numeral of their number -/
theorem numeral_unique : ∀ (n : Nat) (ds : PStr) (i : Nat), ds.length = n → ds ≠ [] → digitsAcc 0 ds = some i →
    (∀ c ∈ ds, ∀ d, digit c = some d → c = digitChar d) → (∀ c b, ds ≠ '0' :: c :: b) → ds = decimal i := by
  intro n
  induction n with
  | zero => intro ds i hl hn; exact absurd (List.eq_nil_of_length_eq_zero hl) hn
  | succ n ih =>
    intro ds i hl hn hd ha hz
    rcases List.eq_nil_or_concat ds with h | ⟨init, c, h⟩
    · exact absurd h hn
    rw [List.concat_eq_append] at h
    subst h
    rw [digitsAcc_append] at hd
    cases hi : digitsAcc 0 init with
    | none => rw [hi] at hd; simp at hd
    | some v =>
      rw [hi] at hd
      simp only [Option.bind_some, digitsAcc] at hd
      cases hc : digit c with
      | none => rw [hc] at hd; cases hd
      | some d =>
        rw [hc] at hd
        simp only [Option.some.injEq] at hd
        have hlt := Runtime.digit_lt c d hc
        have hcd := ha c (by simp) d hc
        by_cases hin : init = []
        · subst hin
          simp only [digitsAcc, Option.some.injEq] at hi
          have : i = d := by omega
          rw [this, decimal_lt hlt, hcd]; rfl
        · have e := ih init v (by simp at hl; omega) hin hi (fun x hx => ha x (by simp [hx])) (by
            intro x b hx
            exact hz x (b ++ [c]) (by rw [hx]; simp))
          have hv : v ≠ 0 := by
            intro h0
            rw [h0, decimal_lt (by decide)] at e
            have e0 : init = ['0'] := e
            exact hz c [] (by rw [e0]; rfl)
          have hge : ¬ i < 10 := by omega
          rw [decimal_ge hge]
          have h1 : i / 10 = v := by omega
          have h2 : i % 10 = d := by omega
          rw [h1, h2, ← e, ← hcd]

omit [Runtime] in
theorem getLast_append_sep {sep : PStr} (hs : sep ≠ []) (a : PStr) : (a ++ sep).getLast? = sep.getLast? := by
  rw [List.getLast?_append]
  cases h : sep.getLast? with
  | none => simp at h; exact absurd h hs
  | some c => rfl

theorem tidy_drop {sep pre key : PStr} (hsep : sep ≠ []) (hd : ∀ c ∈ sep, digit c = none) (hpre : pre = [] ∨ ∃ n, pre = n ++ sep)
    (h : TidyKey sep (pre ++ key)) : TidyKey sep key := by
  have hlast : ∀ x, pre.getLast? = some x → digit x = none := by
    rcases hpre with rfl | ⟨n, rfl⟩
    · simp
    · intro x hx
      rw [getLast_append_sep hsep] at hx
      exact hd x (List.mem_of_getLast? hx)
  refine ⟨fun c hc => h.ascii c (by simp [hc]), ?_, ?_, ?_⟩
  · intro a b c hk ha
    refine h.noZeros (pre ++ a) b c (by rw [hk]; simp) ?_
    intro x hx
    rw [List.getLast?_append] at hx
    cases hla : a.getLast? with
    | none =>
      rw [hla] at hx
      simp at hx
      exact hlast x hx
    | some y =>
      rw [hla] at hx
      simp at hx
      exact ha x (by rw [hla, hx])
  · rintro ⟨t, ht⟩
    exact h.noSep ⟨pre ++ t, by rw [← ht]; simp⟩
  · intro hl
    apply h.noNewline
    rw [List.getLast?_append, hl]; rfl

omit [Runtime] in
theorem childPrefix_shape (sep : PStr) (name : Option PStr) : childPrefix sep name = [] ∨ ∃ n, childPrefix sep name = n ++ sep := by
  unfold childPrefix
  split
  · exact .inr ⟨_, rfl⟩
  · exact .inl rfl

theorem goodSep_of {sep : PStr} (hsep : sep ≠ []) (hd : ∀ c ∈ sep, digit c = none) : GoodSep sep := by
  cases sep with
  | nil => exact absurd rfl hsep
  | cons c cs => exact ⟨c, cs, rfl, hd c (by simp)⟩

/-- what a tidy key addresses in a List says how it is written -/
theorem mentions_tidy {sep : PStr} (hsep : sep ≠ []) (hd : ∀ c ∈ sep, digit c = none) {name : Option PStr} {key : PStr} {i : Nat}
    {ck : Option PStr} (ht : TidyKey sep key) (h : Mentions sep name key i ck) :
    key = childPrefix sep name ++ decimal i ++ (ck.map (sep ++ ·)).getD [] ∧ ∀ r, ck = some r → TidyKey sep r := by
  obtain ⟨ds, rest, hk, hdt, hr⟩ := h
  have hds : ds = decimal i := by
    have hp := (digitText_iff ds i).1 hdt
    have hne : ds ≠ [] := hdt.1
    refine numeral_unique ds.length ds i rfl hne ?_ ?_ ?_
    · unfold parseDigits at hp
      cases ds with
      | nil => exact absurd rfl hne
      | cons a b => simpa using hp
    · intro c hc; exact ht.ascii c (by rw [hk]; simp [hc])
    · intro c b hz
      have := ht.noZeros (childPrefix sep name) (b ++ rest) c (by rw [hk, hz]; simp) (by
        intro x hx
        rcases childPrefix_shape sep name with h | ⟨n, h⟩
        · rw [h] at hx; simp at hx
        · rw [h, getLast_append_sep hsep] at hx
          exact hd x (List.mem_of_getLast? hx))
      obtain ⟨d, hd'⟩ := digitText_mem hdt (c := c) (by rw [hz]; simp)
      rw [this] at hd'; cases hd'
  rcases hr with ⟨rfl, rfl⟩ | ⟨rfl, rfl⟩ | ⟨r, hr, rfl, rfl⟩ | ⟨rfl, rfl⟩
  · exact ⟨by rw [hk, hds]; simp, by intro r hr; cases hr⟩
  · exact absurd ⟨_, hk.symm⟩ ht.noSep
  · refine ⟨by rw [hk, hds]; simp, ?_⟩
    intro r' hr'
    cases hr'
    have : key = ((childPrefix sep name ++ ds) ++ sep) ++ r := by rw [hk]; simp
    rw [this] at ht
    exact tidy_drop hsep hd (.inr ⟨_, rfl⟩) ht
  · exfalso
    apply ht.noNewline
    rw [hk]; simp

/-- all text keys are tidy -/
def TidyAll (sep : PStr) (ps : List FPair) : Prop := ∀ x ∈ ps, ∀ k, x.1 = some k → TidyKey sep k

omit [Runtime] in
theorem sortedIdx_congr {ms ns : List (Nat × FPair)} (h : ∀ i, (∃ m ∈ ms, m.1 = i) ↔ ∃ m ∈ ns, m.1 = i) : sortedIdx ms = sortedIdx ns :=
  sorted_ext (sortedIdx_sorted ms) (sortedIdx_sorted ns) fun i => by rw [mem_sortedIdx, mem_sortedIdx, h]

omit [Runtime] in
theorem maxIdx_congr {ms ns : List (Nat × FPair)} (h : ∀ i, (∃ m ∈ ms, m.1 = i) ↔ ∃ m ∈ ns, m.1 = i) : maxIdx ms = maxIdx ns := by
  have half : ∀ {ms ns : List (Nat × FPair)}, (∀ i, (∃ m ∈ ms, m.1 = i) → ∃ m ∈ ns, m.1 = i) → maxIdx ms ≤ maxIdx ns := by
    intro ms ns h
    by_cases he : ms = []
    · subst he; simp [maxIdx]
    · obtain ⟨m, hm, e⟩ := maxIdx_mem ms he
      obtain ⟨m', hm', e'⟩ := h _ ⟨m, hm, e⟩
      rw [← e']; exact le_maxIdx ns m' hm'
  exact Nat.le_antisymm (half fun i => (h i).1) (half fun i => (h i).2)

/-! ### Arrays -/

theorem arrayMembers_skip (sep : PStr) (name : Option PStr) (prune : Bool) (hm : Hdr) (t : ScalarType) (q : FPair → Bool) (ps : List FPair)
    (h : ∀ x ∈ ps, q x = false → arrayPick sep name hm.name prune x = .ok none) :
    arrayMembers sep name prune hm t ps = arrayMembers sep name prune hm t (ps.filter q) := by
  induction ps with
  | nil => rfl
  | cons x xs ih =>
    have ih := ih fun y hy => h y (by simp [hy])
    cases hq : q x with
    | false =>
      rw [List.filter_cons, hq, arrayMembers, h x (by simp) hq]
      simpa [bind, Except.bind] using ih
    | true =>
      rw [List.filter_cons, hq]
      simp only [if_true]
      rw [arrayMembers, arrayMembers, ih]

theorem arrayMembers_none {sep : PStr} {name : Option PStr} (hn : ¬ Nameless name) {prune : Bool} {hm : Hdr} {t : ScalarType} (ht : TextSafe t)
    {ps : List FPair} (h : hasNone ps = true) : arrayMembers sep name prune hm t ps = .error .type := by
  have htn : ∃ n, truthyName name = some n := by
    cases name with
    | none => exact absurd (.inl rfl) hn
    | some n => cases n with
      | nil => exact absurd (.inr rfl) hn
      | cons c cs => exact ⟨_, rfl⟩
  obtain ⟨n, htn⟩ := htn
  induction ps with
  | nil => simp [hasNone] at h
  | cons x xs ih =>
    obtain ⟨k, v⟩ := x
    cases k with
    | none =>
      rw [arrayMembers]
      simp [arrayPick, htn, bind, Except.bind]
    | some k =>
      have ih := ih (by simpa [hasNone] using h)
      obtain ⟨r, hr⟩ := arrayPick_text sep name hm.name prune k v
      rw [arrayMembers, hr]
      cases r with
      | none => simpa [bind, Except.bind] using ih
      | some key =>
        obtain ⟨m, hm'⟩ := scalarSetFlat_safe ht hm.name .fresh [(key, v)]
        simp [bind, Except.bind, hm', ih]

theorem array_same {sep : PStr} (hsep : sep ≠ []) {h : Hdr} {prune : Bool} {hm : Hdr} {t : ScalarType} (ht : TextSafe t)
    (hone : Nameless h.name ↔ ¬ Nameless hm.name) {ps qs : List FPair} (hpq : SameKeys ps qs) (htidy : TidyAll sep ps) :
    arrayMembers sep h.name prune hm t ps = arrayMembers sep h.name prune hm t qs := by
  have htidy' : TidyAll sep qs := fun x hx => htidy x ((sameKeys_mem hpq x).2 hx)
  by_cases hn : Nameless h.name
  · -- only the members' own name is taken
    have hc := hone.1 hn
    obtain ⟨c, cs, hcn⟩ : ∃ c cs, hm.name = some (c :: cs) := by
      cases e : hm.name with
      | none => exact absurd (.inl e) hc
      | some l => cases l with
        | nil => exact absurd (.inr e) hc
        | cons c cs => exact ⟨c, cs, rfl⟩
    have htn : truthyName h.name = none := by rcases hn with e | e <;> rw [e] <;> rfl
    have pick : ∀ x : FPair, (x.1 == hm.name) = false → arrayPick sep h.name hm.name prune x = .ok none := by
      intro x hx
      have hx' : x.1 ≠ some (c :: cs) := by rw [← hcn]; simpa using hx
      unfold arrayPick
      rw [htn, hcn]
      simp only [truthyName, Option.isSome_some, Bool.true_and, Option.getD_some]
      by_cases he : x.1 = some []
      · simp [he]
      · simp [he, hx']
    rw [arrayMembers_skip sep h.name prune hm t (fun x => x.1 == hm.name) ps (fun x _ => pick x),
      arrayMembers_skip sep h.name prune hm t (fun x => x.1 == hm.name) qs (fun x _ => pick x), hpq hm.name trivial]
  · by_cases hnone : hasNone ps = true
    · rw [arrayMembers_none hn ht hnone, arrayMembers_none hn ht (by rw [← sameKeys_hasNone hpq]; exact hnone)]
    · have hc : Nameless hm.name := Classical.byContradiction fun hc => hn (hone.2 hc)
      obtain ⟨c, cs, hcn⟩ : ∃ c cs, h.name = some (c :: cs) := by
        cases e : h.name with
        | none => exact absurd (.inl e) hn
        | some l => cases l with
          | nil => exact absurd (.inr e) hn
          | cons c cs => exact ⟨c, cs, rfl⟩
      have htn : truthyName hm.name = none := by rcases hc with e | e <;> rw [e] <;> rfl
      have pick : ∀ l : List FPair, TidyAll sep l → hasNone l = false → ∀ x ∈ l, (x.1 == h.name) = false →
          arrayPick sep h.name hm.name prune x = .ok none := by
        intro l hl hln x hx hxk
        obtain ⟨k, v⟩ := x
        cases k with
        | none =>
          exfalso
          have : hasNone l = true := List.any_eq_true.2 ⟨_, hx, rfl⟩
          rw [this] at hln; cases hln
        | some k =>
          have hkn : k ≠ c :: cs := by
            intro e; rw [e, hcn] at hxk; simp at hxk
          have htk := hl _ hx k rfl
          unfold arrayPick
          rw [hcn]
          have htop : truthyName (some (c :: cs)) = some (c :: cs) := rfl
          simp only [htop, htn, Option.isSome_none, Bool.false_and, Bool.false_eq_true, if_false, Option.isNone_none, Bool.and_true]
          by_cases hst : startsWith k ((c :: cs) ++ sep) = true
          · rw [if_pos hst]
            simp only
            obtain ⟨r, hr⟩ := List.isPrefixOf_iff_prefix.1 hst
            have hrn : r ≠ [] := by
              rintro rfl
              exact htk.noSep ⟨c :: cs, by rw [← hr]; simp⟩
            have hdrop : k.drop ((c :: cs) ++ sep).length = r := by rw [← hr]; simp
            rw [hdrop, orNone_cons hrn]
            simp
          · rw [if_neg hst]
            by_cases hnl : k = (c :: cs) ++ ['\n']
            · exfalso; apply htk.noNewline; rw [hnl, List.getLast?_append]; rfl
            · have : (k == c :: cs || k == (c :: cs) ++ ['\n']) = false := by
                rw [Bool.or_eq_false_iff]; exact ⟨by simpa using hkn, by simpa using hnl⟩
              rw [this]; simp
      have hnq : hasNone qs = false := by rw [← sameKeys_hasNone hpq]; simpa using hnone
      rw [arrayMembers_skip sep h.name prune hm t (fun x => x.1 == h.name) ps (pick ps htidy (by simpa using hnone)),
        arrayMembers_skip sep h.name prune hm t (fun x => x.1 == h.name) qs (pick qs htidy' hnq), hpq h.name trivial]

/-! ### all schemas -/

omit [Runtime] in
theorem below_inj {pre : PStr} {x y x' y' : FPair} (hx : below pre x = some x') (hy : below pre y = some y') (h : x'.1 = y'.1) : x.1 = y.1 := by
  obtain ⟨k, v⟩ := x
  obtain ⟨l, w⟩ := y
  cases k with
  | none => simp [below] at hx
  | some k =>
    cases l with
    | none => simp [below] at hy
    | some l =>
      simp only [below] at hx hy
      split at hx
      · rename_i h1
        split at hy
        · rename_i h2
          cases hx; cases hy
          obtain ⟨r, hr⟩ := List.isPrefixOf_iff_prefix.1 h1
          obtain ⟨q, hq⟩ := List.isPrefixOf_iff_prefix.1 h2
          simp only [Option.some.injEq] at h
          rw [← hr, ← hq] at h ⊢
          simp at h
          rw [h]
        · cases hy
      · cases hx

theorem below_tidy {sep n : PStr} (hsep : sep ≠ []) (hd : ∀ c ∈ sep, digit c = none) {ps : List FPair} (h : TidyAll sep ps) :
    TidyAll sep (ps.filterMap (below (n ++ sep))) := by
  intro x' hx' k hk
  obtain ⟨x, hx, hb⟩ := List.mem_filterMap.1 hx'
  obtain ⟨l, v⟩ := x
  cases l with
  | none => simp [below] at hb
  | some l =>
    simp only [below] at hb
    split at hb
    · rename_i h1
      cases hb
      obtain ⟨r, hr⟩ := List.isPrefixOf_iff_prefix.1 h1
      have ht := h _ hx l rfl
      cases hk
      rw [← hr] at ht ⊢
      simp only [List.drop_left]
      exact tidy_drop hsep hd (.inr ⟨n, rfl⟩) ht
    · cases hb

mutual
theorem order_same {sep : PStr} (hsep : sep ≠ []) (hd : ∀ c ∈ sep, digit c = none) (hnl : sep ≠ ['\n']) : ∀ (s : Schema), OneKey s →
    ∀ (e : Elem) (ps qs : List FPair), SameKeys ps qs → TidyAll sep ps → setFlat sep s e ps = setFlat sep s e qs
  | .scalar h t, _, e, ps, qs, hpq, _ => by
    simp only [setFlat, scalarSetFlat, find_filter_head, hpq h.name trivial]
  | .dict h mode po fs, hs, e, ps, qs, hpq, ht => by
    simp only [OneKey] at hs
    have rest : ∀ (nm : Option PStr) (ps qs : List FPair), SameKeys ps qs → TidyAll sep ps →
        (if ps.isEmpty then Except.ok e else match setFlatFields sep fs e.kids ps with
          | .error er => .error er
          | .ok kids => .ok (.dict nm kids)) =
        (if qs.isEmpty then Except.ok e else match setFlatFields sep fs e.kids qs with
          | .error er => .error er
          | .ok kids => .ok (.dict nm kids)) := by
      intro nm ps qs hpq ht
      rw [sameKeys_isEmpty hpq, order_same_fields hsep hd hnl fs hs e.kids ps qs hpq ht]
    simp only [setFlat, dictPossibles]
    cases h.name with
    | none => exact rest none ps qs hpq ht
    | some n =>
      simp only [possibles_go, ← sameKeys_hasNone hpq]
      cases hasNone ps with
      | true => rfl
      | false =>
        simp only [Bool.false_eq_true, if_false]
        exact rest (some n) _ _ (sameKeys_filterMap hpq _ fun x _ y _ x' y' hx hy => below_inj hx hy) (below_tidy hsep hd ht)
  | .list h prune max m, hs, e, ps, qs, hpq, ht => by
    simp only [OneKey] at hs
    have hg := goodSep_of hsep hd
    have hpq' := sameKeys_filter hpq fun x => !(x.2 == [] && prune)
    have ht' : TidyAll sep (ps.filter fun x => !(x.2 == [] && prune)) := fun x hx => ht x (List.mem_filter.1 hx).1
    simp only [setFlat, listMatches_eq, ← sameKeys_hasNone hpq']
    generalize (ps.filter fun x => !(x.2 == [] && prune)) = ps' at hpq' ht'
    generalize (qs.filter fun x => !(x.2 == [] && prune)) = qs' at hpq'
    cases hasNone ps' with
    | true => rfl
    | false =>
      simp only [Bool.false_eq_true, if_false]
      have hset : ∀ i, (∃ x ∈ ps'.filterMap fun x => (x.1.bind (idxMatch sep h.name)).map fun r => (r.1, (r.2, x.2)), x.1 = i) ↔
          ∃ x ∈ qs'.filterMap fun x => (x.1.bind (idxMatch sep h.name)).map fun r => (r.1, (r.2, x.2)), x.1 = i := by
        intro i
        constructor
        · rintro ⟨x, hx, e⟩
          obtain ⟨y, hy, hxy⟩ := List.mem_filterMap.1 hx
          exact ⟨x, List.mem_filterMap.2 ⟨y, (sameKeys_mem hpq' y).1 hy, hxy⟩, e⟩
        · rintro ⟨x, hx, e⟩
          obtain ⟨y, hy, hxy⟩ := List.mem_filterMap.1 hx
          exact ⟨x, List.mem_filterMap.2 ⟨y, (sameKeys_mem hpq' y).2 hy, hxy⟩, e⟩
      have hsub : ∀ i, setFlat sep m (fresh m) (subPairs (ps'.filterMap fun x => (x.1.bind (idxMatch sep h.name)).map fun r => (r.1, (r.2, x.2))) i) =
            setFlat sep m (fresh m) (subPairs (qs'.filterMap fun x => (x.1.bind (idxMatch sep h.name)).map fun r => (r.1, (r.2, x.2))) i) ∧
          (subPairs (ps'.filterMap fun x => (x.1.bind (idxMatch sep h.name)).map fun r => (r.1, (r.2, x.2))) i).isEmpty =
            (subPairs (qs'.filterMap fun x => (x.1.bind (idxMatch sep h.name)).map fun r => (r.1, (r.2, x.2))) i).isEmpty := by
        intro i
        rw [subPairs_filterMap, subPairs_filterMap]
        have ment : ∀ x ∈ ps', ∀ x' : FPair, ((x.1.bind (idxMatch sep h.name)).bind fun r => if r.1 = i then some (r.2, x.2) else none) = some x' →
            ∃ k, x.1 = some k ∧ TidyKey sep k ∧ Mentions sep h.name k i x'.1 := by
          intro x hx x' hxx
          obtain ⟨k, v⟩ := x
          cases k with
          | none => simp at hxx
          | some k =>
            simp only [Option.bind_some] at hxx
            cases hi : idxMatch sep h.name k with
            | none => rw [hi] at hxx; simp at hxx
            | some r =>
              rw [hi] at hxx
              simp only [Option.bind_some] at hxx
              split at hxx
              · rename_i hr
                cases hxx
                refine ⟨k, rfl, ht' _ hx k rfl, ?_⟩
                have := (idxMatch_iff hg hnl h.name k r.1 r.2).1 hi
                rw [hr] at this; exact this
              · cases hxx
        have hsk := sameKeys_filterMap hpq' (fun x => (x.1.bind (idxMatch sep h.name)).bind fun r => if r.1 = i then some (r.2, x.2) else none) (by
          intro x hx y hy x' y' hx' hy' e
          obtain ⟨k, hk, tk, mk⟩ := ment x hx x' hx'
          obtain ⟨l, hl, tl, ml⟩ := ment y hy y' hy'
          rw [hk, hl, (mentions_tidy hsep hd tk mk).1, (mentions_tidy hsep hd tl ml).1, e])
        refine ⟨order_same hsep hd hnl m hs (fresh m) _ _ hsk ?_, sameKeys_isEmpty hsk⟩
        intro x' hx' k hk
        obtain ⟨x, hx, hxx⟩ := List.mem_filterMap.1 hx'
        obtain ⟨l, hl, tl, ml⟩ := ment x hx x' hxx
        exact (mentions_tidy hsep hd tl ml).2 k hk
      have hem : (ps'.filterMap fun x => (x.1.bind (idxMatch sep h.name)).map fun r => (r.1, (r.2, x.2))).isEmpty =
          (qs'.filterMap fun x => (x.1.bind (idxMatch sep h.name)).map fun r => (r.1, (r.2, x.2))).isEmpty := by
        rw [Bool.eq_iff_iff, List.isEmpty_iff, List.isEmpty_iff]
        constructor
        · intro e0
          refine List.eq_nil_iff_forall_not_mem.2 fun x hx => ?_
          obtain ⟨y, hy, -⟩ := (hset x.1).2 ⟨x, hx, rfl⟩
          rw [e0] at hy; cases hy
        · intro e0
          refine List.eq_nil_iff_forall_not_mem.2 fun x hx => ?_
          obtain ⟨y, hy, -⟩ := (hset x.1).1 ⟨x, hx, rfl⟩
          rw [e0] at hy; cases hy
      have hfun : (fun i => if (subPairs (ps'.filterMap fun x => (x.1.bind (idxMatch sep h.name)).map fun r => (r.1, (r.2, x.2))) i).isEmpty then
            Except.ok (fresh m) else setFlat sep m (fresh m) (subPairs (ps'.filterMap fun x => (x.1.bind (idxMatch sep h.name)).map fun r => (r.1, (r.2, x.2))) i)) =
          (fun i => if (subPairs (qs'.filterMap fun x => (x.1.bind (idxMatch sep h.name)).map fun r => (r.1, (r.2, x.2))) i).isEmpty then
            Except.ok (fresh m) else setFlat sep m (fresh m) (subPairs (qs'.filterMap fun x => (x.1.bind (idxMatch sep h.name)).map fun r => (r.1, (r.2, x.2))) i)) := by
        funext i
        rw [(hsub i).1, (hsub i).2]
      rw [hem, sortedIdx_congr hset, maxIdx_congr hset, hfun]
  | .array h prune (.scalar hm t), hs, e, ps, qs, hpq, ht => by
    simp only [OneKey, Schema.name, Schema.hdr] at hs
    simp only [setFlat, array_same hsep (prune := prune) hs.2 hs.1 hpq ht]
  | .array _ _ (.dict ..), _, _, _, _, _, _ => by simp [setFlat]
  | .array _ _ (.list ..), _, _, _, _, _, _ => by simp [setFlat]
  | .array _ _ (.array ..), _, _, _, _, _, _ => by simp [setFlat]
theorem order_same_fields {sep : PStr} (hsep : sep ≠ []) (hd : ∀ c ∈ sep, digit c = none) (hnl : sep ≠ ['\n']) : ∀ (fs : List Schema), OneKeyAll fs →
    ∀ (kids : List Elem) (ps qs : List FPair), SameKeys ps qs → TidyAll sep ps → setFlatFields sep fs kids ps = setFlatFields sep fs kids qs
  | [], _, _, _, _, _, _ => by simp [setFlatFields]
  | f :: fs, hs, kids, ps, qs, hpq, ht => by
    simp only [OneKeyAll] at hs
    obtain ⟨hf, h1, h2⟩ := hs
    cases hn : f.name with
    | none => exact absurd hn hf
    | some n =>
      simp only [setFlatFields, hn, accum_some, ← sameKeys_hasNone hpq]
      cases hasNone ps with
      | true => rfl
      | false =>
        simp only [Bool.false_eq_true, if_false]
        have hsk := sameKeys_filter hpq fun x => (x.1.map fun k => startsWith k n).getD false
        have htd : TidyAll sep (ps.filter fun x => (x.1.map fun k => startsWith k n).getD false) := fun x hx => ht x (List.mem_filter.1 hx).1
        rw [sameKeys_isEmpty hsk, order_same hsep hd hnl f h1 _ _ _ hsk htd, order_same_fields hsep hd hnl fs h2 kids.tail ps qs hpq ht]
end

end
end Flatland
