import Verif.Proofs.SetFlat
import Verif.Spec.Cycle
/-!
Submissions that make `set_flat` raise, for scalar classes that raise for some texts (C12).
-/
namespace Flatland
open Spec
section
variable [Runtime]

/-! ### never raising -/

theorem scalarSetFlat_quiet {t : ScalarType} {name : Option PStr} {st : ScalarState} {ps : List FPair}
    (h : (∃ p ∈ ps, p.1 = name) → TextSafe t) : ∃ e, scalarSetFlat name t st ps = .ok e := by
  by_cases hp : ∃ p ∈ ps, p.1 = name
  · exact scalarSetFlat_safe (h hp) ..
  · unfold scalarSetFlat
    have : ps.find? (fun p => p.1 == name) = none := by
      rw [List.find?_eq_none]
      intro p hm hb
      exact hp ⟨p, hm, by simpa using hb⟩
    rw [this]
    exact ⟨_, rfl⟩

omit [Runtime] in
/-- a member called '' is never handed its own name -/
theorem arrayPick_not_blank {sep : PStr} {name : Option PStr} {prune : Bool} {x : FPair} {key : Option PStr}
    (hx : arrayPick sep name (some []) prune x = .ok (some key)) : key ≠ some [] := by
  have ht : truthyName (some ([] : PStr)) = none := rfl
  unfold arrayPick at hx
  rw [ht] at hx
  simp only [Option.isSome_none, Bool.false_and, Bool.false_eq_true, if_false] at hx
  split at hx
  · split at hx
    · simp at hx
    · simp only [Except.ok.injEq, Option.some.injEq] at hx
      subst hx
      split
      · simp
      · rename_i h; simpa using h
  · split at hx
    · simp at hx
    · split at hx
      · simp at hx
      · split at hx
        · simp at hx
        · split at hx
          · simp at hx
          · simp only [Except.ok.injEq, Option.some.injEq] at hx
            subst hx
            unfold orNone
            split <;> simp_all

theorem arrayMembers_quiet {sep : PStr} {name : Option PStr} {prune : Bool} {hm : Hdr} {t : ScalarType} (ht : hm.name ≠ some [] → TextSafe t)
    (ps : List FPair) (h : ∀ x ∈ ps, ∃ r, arrayPick sep name hm.name prune x = .ok r) :
    ∃ es, arrayMembers sep name prune hm t ps = .ok es := by
  induction ps with
  | nil => exact ⟨_, rfl⟩
  | cons x ps ih =>
    obtain ⟨es, hes⟩ := ih fun y hy => h y (by simp [hy])
    obtain ⟨r, hr⟩ := h x (by simp)
    rw [arrayMembers, hr]
    cases r with
    | none => exact ⟨es, by simpa [bind, Except.bind] using hes⟩
    | some key =>
      obtain ⟨m, hm'⟩ := scalarSetFlat_quiet (t := t) (name := hm.name) (st := .fresh) (ps := [(key, x.2)]) (by
        rintro ⟨p, hp, hk⟩
        simp only [List.mem_singleton] at hp
        subst hp
        refine ht fun hb => ?_
        rw [hb] at hr hk
        exact arrayPick_not_blank hr hk)
      exact ⟨m :: es, by simp [bind, Except.bind, hm', hes]⟩

theorem subPairs_not_blank {sep : PStr} {name : Option PStr} {prune : Bool} {ps : List (PStr × PStr)} {i : Nat} {p : FPair}
    (h : p ∈ subPairs (matchesOf sep name prune ps) i) : p.1 ≠ some [] := by
  simp only [subPairs, matchesOf, List.mem_map, List.mem_filter, List.mem_filterMap] at h
  obtain ⟨⟨j, q⟩, ⟨⟨a, _, ha⟩, _⟩, rfl⟩ := h
  rw [Option.map_eq_some_iff] at ha
  obtain ⟨⟨i', ck⟩, hi, he⟩ := ha
  simp only [Prod.mk.injEq] at he
  obtain ⟨rfl, rfl⟩ := he
  simp only
  unfold idxMatch at hi
  split at hi
  · simp only at hi
    split at hi
    · simp only [Option.map_eq_some_iff, Prod.mk.injEq] at hi
      obtain ⟨_, _, _, rfl⟩ := hi
      unfold orNone
      split <;> simp_all
    · simp at hi
  · simp at hi

theorem member_quiet {sep : PStr} {h : Hdr} {prune : Bool} {max : Nat} {m : Schema} (h0 : max ≠ 0) (hb : BareMember m)
    (hr : ∀ t, Reached (.list h prune max m) t → TextSafe t) (e : Elem) (ps : List FPair) (hp : ∀ p ∈ ps, p.1 ≠ some []) :
    ∃ e', setFlat sep m e ps = .ok e' := by
  cases m with
  | scalar hm t =>
    rw [setFlat]
    refine scalarSetFlat_quiet ?_
    rintro ⟨p, hpm, hk⟩
    exact hr t (.member h0 fun hbl => hp p hpm (hk.trans hbl))
  | dict => exact absurd hb (by simp [BareMember])
  | list => exact absurd hb (by simp [BareMember])
  | array ha prune' m =>
    simp only [BareMember] at hb
    cases m with
    | scalar hm t =>
      rw [setFlat]
      obtain ⟨es, hes⟩ := arrayMembers_quiet (sep := sep) (name := ha.name) (prune := prune') (hm := hm) (t := t)
        (fun hbl => hr t (.inner h0 hbl)) ps fun x _ => arrayPick_unnamed sep hb.1 _ _ _
      rw [hes]; exact ⟨_, rfl⟩
    | _ => simp [isContainer] at hb

end

mutual
theorem quiet_ok [Runtime] {sep : PStr} : ∀ (s : Schema), NeverRaises s → (∀ t, Reached s t → TextSafe t) →
    ∀ (e : Elem) (ps : List (PStr × PStr)), ∃ e', setFlat sep s e (texts ps) = .ok e'
  | .scalar h t, _, hr, e, ps => by
    rw [setFlat]
    refine scalarSetFlat_quiet ?_
    rintro ⟨p, hp, hk⟩
    simp only [texts, List.mem_map] at hp
    obtain ⟨y, _, rfl⟩ := hp
    exact hr t (.scalar (by rw [← hk]; simp))
  | .dict h mode po fs, hn, hr, e, ps => by
    simp only [NeverRaises] at hn
    rw [setFlat, dictPossibles_texts]
    simp only
    split
    · exact ⟨_, rfl⟩
    · obtain ⟨r, hr⟩ := quietAll_ok fs hn (fun f hf t ht => hr t (.field hf ht)) e.kids
        ((ps.filter fun x => (fieldPrefix sep h.name).isPrefixOf x.1).map fun x => (x.1.drop (fieldPrefix sep h.name).length, x.2))
      rw [hr]; exact ⟨_, rfl⟩
  | .list h prune max m, hn, hr, e, ps => by
    simp only [NeverRaises] at hn
    rw [setFlat, listMatches_texts]
    simp only
    by_cases h0 : max = 0
    · rw [h0]
      generalize matchesOf sep h.name prune ps = ms
      have : (if ms.isEmpty = true then [] else if prune = true then (sortedIdx ms).take 0 else List.range (min (maxIdx ms + 1) 0)) = [] := by
        split
        · rfl
        · split <;> simp
      rw [this]
      exact ⟨.list h.name [], rfl⟩
    · have hb := hn.resolve_left h0
      obtain ⟨r, hr⟩ := mapM_safe (f := fun i => if (subPairs (matchesOf sep h.name prune ps) i).isEmpty = true then .ok (fresh m)
          else setFlat sep m (fresh m) (subPairs (matchesOf sep h.name prune ps) i))
        (if (matchesOf sep h.name prune ps).isEmpty then [] else if prune then (sortedIdx (matchesOf sep h.name prune ps)).take max
        else List.range (min (maxIdx (matchesOf sep h.name prune ps) + 1) max)) (by
          intro a _
          split
          · exact ⟨_, rfl⟩
          · exact member_quiet h0 hb hr _ _ fun p hp => subPairs_not_blank hp)
      rw [hr]; exact ⟨_, rfl⟩
  | .array h prune (.scalar hm t), _, hr, e, ps => by
    rw [setFlat]
    obtain ⟨es, hes⟩ := arrayMembers_quiet (sep := sep) (name := h.name) (prune := prune) (hm := hm) (t := t) (fun hb => hr t (.item hb)) (texts ps) (by
      intro x hx
      simp only [texts, List.mem_map] at hx
      obtain ⟨y, _, rfl⟩ := hx
      exact arrayPick_text ..)
    rw [hes]; exact ⟨_, rfl⟩
  | .array h prune (.dict ..), hn, _, _, _ | .array h prune (.list ..), hn, _, _, _ | .array h prune (.array ..), hn, _, _, _ => by
    simp [NeverRaises, isContainer] at hn
theorem quietAll_ok [Runtime] {sep : PStr} : ∀ (fs : List Schema), NeverRaisesAll fs → (∀ f ∈ fs, ∀ t, Reached f t → TextSafe t) →
    ∀ (kids : List Elem) (ps : List (PStr × PStr)), ∃ r, setFlatFields sep fs kids (texts ps) = .ok r
  | [], _, _, _, _ => ⟨[], by rw [setFlatFields]⟩
  | f :: fs, hn, hr, kids, ps => by
    simp only [NeverRaisesAll] at hn
    rw [setFlatFields]
    cases hf : f.name with
    | none => exact absurd hf hn.1
    | some fn =>
      rw [accumField_texts]
      simp only
      obtain ⟨r, hr'⟩ := quietAll_ok fs hn.2.2 (fun g hg => hr g (by simp [hg])) kids.tail ps
      obtain ⟨k', hk'⟩ : ∃ k', (if (texts (ps.filter fun x => fn.isPrefixOf x.1)).isEmpty then .ok (kids.headD .absent)
          else setFlat sep f (orFresh f (kids.headD .absent)) (texts (ps.filter fun x => fn.isPrefixOf x.1))) = .ok k' := by
        split
        · exact ⟨_, rfl⟩
        · exact quiet_ok f hn.2.1 (hr f (by simp)) _ _
      rw [hk', hr']
      exact ⟨_, rfl⟩
end

/-! ### raising -/
section
variable [Runtime]

theorem scalarSetFlat_loud {t : ScalarType} {x : PStr} (hx : ∀ st, ∃ er, (scalarSet t st (.str x)).2 = .error er) (name : Option PStr)
    (st : ScalarState) : ∃ er, scalarSetFlat name t st [(name, x)] = .error er := by
  obtain ⟨er, her⟩ := hx { st with raw := none }
  unfold scalarSetFlat
  simp only [List.find?_cons, beq_self_eq_true]
  split
  · rename_i heq; rw [heq] at her; simp at her
  · exact ⟨_, rfl⟩

omit [Runtime] in
/-- a key by which the member of an Array is handed its own name -/
theorem arrayPick_key {sep : PStr} {name cn : Option PStr} (hc : cn ≠ some []) (prune : Bool) {x : PStr} (hx : x ≠ []) :
    ∃ key : PStr, name.getD [] <+: key ∧ arrayPick sep name cn prune (some key, x) = .ok (some cn) := by
  have hxb : (x == []) = false := by simpa using hx
  match name, cn with
  | none, none => exact ⟨[], by simp, by simp [arrayPick, truthyName, hxb]⟩
  | some [], none => exact ⟨[], by simp, by simp [arrayPick, truthyName, hxb]⟩
  | none, some (c :: cs) => exact ⟨c :: cs, by simp, by simp [arrayPick, truthyName, hxb]⟩
  | some [], some (c :: cs) => exact ⟨c :: cs, by simp, by simp [arrayPick, truthyName, hxb]⟩
  | _, some [] => exact absurd rfl hc
  | some (a :: as), some (c :: cs) =>
    refine ⟨(a :: as) ++ sep ++ (c :: cs), by simp, ?_⟩
    have : startsWith ((a :: as) ++ sep ++ (c :: cs)) ((a :: as) ++ sep) = true := by rw [startsWith_iff]; exact List.prefix_append ..
    simp only [arrayPick, truthyName, this, if_true, List.drop_left, hxb]
    simp [orNone]
  | some (a :: as), none =>
    by_cases hs : sep = []
    · subst hs
      refine ⟨a :: as, by simp, ?_⟩
      have : startsWith (a :: as) ((a :: as) ++ []) = true := by rw [startsWith_iff]; simp
      simp only [arrayPick, truthyName, this, if_true, hxb]
      simp [orNone]
    · refine ⟨(a :: as) ++ sep, by simp, ?_⟩
      have : startsWith ((a :: as) ++ sep) ((a :: as) ++ sep) = true := by rw [startsWith_iff]; simp
      simp only [arrayPick, truthyName, this, if_true, hxb]
      simp [orNone]

theorem arrayMembers_loud {sep : PStr} {name : Option PStr} {prune : Bool} {hm : Hdr} {t : ScalarType} {x : PStr} {k : Option PStr}
    (hx : ∀ st, ∃ er, (scalarSet t st (.str x)).2 = .error er) (hk : arrayPick sep name hm.name prune (k, x) = .ok (some hm.name)) :
    ∃ er, arrayMembers sep name prune hm t [(k, x)] = .error er := by
  obtain ⟨er, her⟩ := scalarSetFlat_loud hx hm.name .fresh
  exact ⟨er, by simp [arrayMembers, hk, bind, Except.bind, her]⟩

theorem idxMatch_zero_key {sep : PStr} (hs : GoodSep sep) (name : Option PStr) (c : Char) (cs : PStr) :
    idxMatch sep name (childPrefix sep name ++ ['0'] ++ (sep ++ (c :: cs))) = some (0, some (c :: cs)) := by
  have h0 : digit '0' = some 0 := Runtime.digit_ascii 0 (by omega)
  obtain ⟨a, as, rfl, ha⟩ := hs
  unfold idxMatch
  rw [idxPrefix_eq, if_pos (by rw [startsWith_iff, List.append_assoc]; exact List.prefix_append ..)]
  rw [List.append_assoc]
  simp only [List.drop_left]
  have : (['0'] ++ (a :: as ++ (c :: cs)) : PStr).takeWhile isDigit' = ['0'] := by simp [isDigit', h0, ha]
  rw [this]
  have hf : startsWith (a :: (as ++ c :: cs)) (a :: as) = true := by rw [startsWith_iff]; exact ⟨c :: cs, by simp⟩
  simp [idxTail, hf, digitsAcc_zero, orNone]

/-- a key by which the first member of a List is handed `ck` -/
theorem idxMatch_key {sep : PStr} (hs : GoodSep sep) (name : Option PStr) {ck : Option PStr} (hc : ck ≠ some []) :
    ∃ key : PStr, name.getD [] <+: key ∧ idxMatch sep name key = some (0, ck) := by
  have hp : name.getD [] <+: childPrefix sep name := by
    cases name with
    | none => simp
    | some n => cases n <;> simp [childPrefix]
  match ck with
  | none => exact ⟨_, hp.trans (List.prefix_append ..), idxMatch_zero sep (by obtain ⟨_, _, rfl, _⟩ := hs; simp) name⟩
  | some [] => exact absurd rfl hc
  | some (c :: cs) => exact ⟨_, hp.trans ((List.prefix_append ..).trans (List.prefix_append ..)), idxMatch_zero_key hs name c cs⟩

theorem list_loud {sep : PStr} (hs : GoodSep sep) {h : Hdr} {prune : Bool} {max : Nat} {m : Schema} (h0 : max ≠ 0) {x : PStr} (hx : x ≠ [])
    {ck : Option PStr} (hc : ck ≠ some []) (hm : ∀ e, ∃ er, setFlat sep m e [(ck, x)] = .error er) :
    ∃ key : PStr, h.name.getD [] <+: key ∧ ∀ e, ∃ er, setFlat sep (.list h prune max m) e (texts [(key, x)]) = .error er := by
  obtain ⟨key, hpre, hkey⟩ := idxMatch_key hs h.name hc
  refine ⟨key, hpre, fun e => ?_⟩
  rw [setFlat, listMatches_texts]
  have hms : matchesOf sep h.name prune [(key, x)] = [(0, ck, x)] := by
    unfold matchesOf
    have : ([(key, x)] : List (PStr × PStr)).filter (fun x => !(x.2 == [] && prune)) = [(key, x)] := by simp [hx]
    rw [this]
    simp only [List.filterMap_cons, hkey, Option.map_some, List.filterMap_nil]
  rw [hms]
  have h0 : (0 : Nat) ∈ (if prune = true then (sortedIdx [(0, ck, x)]).take max
      else List.range (min (maxIdx [(0, ck, x)] + 1) max)) := by
    have hm1 : 0 < max := Nat.pos_of_ne_zero h0
    split
    · cases max with
      | zero => omega
      | succ k => simp [sortedIdx, insertIdx]
    · simp [maxIdx]; omega
  obtain ⟨er, her⟩ := mapM_error (f := fun i => if (subPairs [(0, ck, x)] i).isEmpty = true then .ok (fresh m)
      else setFlat sep m (fresh m) (subPairs [(0, ck, x)] i)) _ 0 h0 (by
    have : subPairs [(0, ck, x)] 0 = [(ck, x)] := rfl
    rw [this]
    exact hm _)
  simp only [List.isEmpty_cons, Bool.false_eq_true, if_false]
  rw [her]
  exact ⟨er, rfl⟩

/-- The text that a class raises for can be sent to it. -/
theorem reached_loud {sep : PStr} (hs : GoodSep sep) {x : PStr} (hx : x ≠ []) {s : Schema} {t : ScalarType} (hr : Reached s t)
    (ht : ∀ st, ∃ er, (scalarSet t st (.str x)).2 = .error er) (hn : NeverRaises s) :
    ∃ key : PStr, s.name.getD [] <+: key ∧ ∀ e, ∃ er, setFlat sep s e (texts [(key, x)]) = .error er := by
  induction hr with
  | @scalar h t hne =>
    cases hnm : h.name with
    | none => exact absurd hnm hne
    | some n =>
      refine ⟨n, by simp [Schema.name, Schema.hdr, hnm], fun e => ?_⟩
      rw [setFlat, hnm]
      exact scalarSetFlat_loud ht (some n) _
  | @field h mode po fs f t hf _ ih =>
    simp only [NeverRaises] at hn
    have hf' : f.name ≠ none ∧ NeverRaises f := by
      clear ih
      induction fs with
      | nil => simp at hf
      | cons g fs ih =>
        simp only [NeverRaisesAll] at hn
        rcases List.mem_cons.1 hf with rfl | hf
        · exact ⟨hn.1, hn.2.1⟩
        · exact ih hf hn.2.2
    obtain ⟨key, hpre, hall⟩ := ih ht hf'.2
    cases hfn : f.name with
    | none => exact absurd hfn hf'.1
    | some fn =>
      rw [hfn] at hpre
      refine ⟨fieldPrefix sep h.name ++ key, ?_, fun e => ?_⟩
      · simp only [Schema.name, Schema.hdr]
        cases h.name with
        | none => simp
        | some n => simp [fieldPrefix]
      · rw [setFlat, dictPossibles_texts]
        have h1 : (([(fieldPrefix sep h.name ++ key, x)] : List (PStr × PStr)).filter fun x => (fieldPrefix sep h.name).isPrefixOf x.1).map
            (fun x => (x.1.drop (fieldPrefix sep h.name).length, x.2)) = [(key, x)] := by
          simp
        rw [h1]
        obtain ⟨er, her⟩ := setFlatFields_error (sep := sep) fs e.kids (texts [(key, x)]) f hf (by
          refine .inr ⟨texts [(key, x)], ?_, by simp [texts], hall⟩
          rw [hfn, accumField_texts]
          have : fn <+: key := by simpa using hpre
          simp [this])
        have h2 : (texts [(key, x)]).isEmpty = false := rfl
        simp only [her, h2, Bool.false_eq_true, if_false]
        exact ⟨er, rfl⟩
  | @member hl prune max h t h0 hne =>
    exact list_loud hs h0 hx hne fun e => by rw [setFlat]; exact scalarSetFlat_loud ht _ _
  | @inner hl prune max ha prune' h t h0 hne =>
    have hb : BareMember (.array ha prune' (.scalar h t)) := by simpa [NeverRaises, h0] using hn
    refine list_loud hs h0 hx hne fun e => ?_
    have hp : arrayPick sep ha.name h.name prune' (h.name, x) = .ok (some h.name) := by
      have ht : truthyName ha.name = none := by rcases hb.1 with h | h <;> rw [h] <;> rfl
      have hxb : (x == []) = false := by simpa using hx
      unfold arrayPick
      rw [ht]
      simp [hxb, hne]
    obtain ⟨er, her⟩ := arrayMembers_loud ht hp
    rw [setFlat, her]
    exact ⟨er, rfl⟩
  | @item ha prune h t hne =>
    obtain ⟨key, hpre, hk⟩ := arrayPick_key (sep := sep) (name := ha.name) hne prune hx
    refine ⟨key, hpre, fun e => ?_⟩
    obtain ⟨er, her⟩ := arrayMembers_loud ht hk
    rw [setFlat]
    simp only [texts, List.map_cons, List.map_nil, her]
    exact ⟨er, rfl⟩

end

mutual
theorem allTypes_mono {P Q : ScalarType → Prop} (h : ∀ t, P t → Q t) : ∀ s : Schema, AllTypes P s → AllTypes Q s
  | .scalar _ t, hs => h t hs
  | .dict _ _ _ fs, hs => allTypesIn_mono h fs hs
  | .list _ _ _ m, hs => allTypes_mono h m hs
  | .array _ _ m, hs => allTypes_mono h m hs
theorem allTypesIn_mono {P Q : ScalarType → Prop} (h : ∀ t, P t → Q t) : ∀ fs : List Schema, AllTypesIn P fs → AllTypesIn Q fs
  | [], _ => trivial
  | f :: fs, hs => ⟨allTypes_mono h f hs.1, allTypesIn_mono h fs hs.2⟩
end

theorem reached_type {P : ScalarType → Prop} {s : Schema} {t : ScalarType} (hr : Reached s t) (hT : AllTypes P s) : P t := by
  induction hr with
  | scalar => exact hT
  | @field h mode po fs f t hf _ ih =>
    simp only [AllTypes] at hT
    refine ih ?_
    clear ih
    induction fs with
    | nil => simp at hf
    | cons g fs ih =>
      simp only [AllTypesIn] at hT
      rcases List.mem_cons.1 hf with rfl | hf
      · exact hT.1
      · exact ih hf hT.2
  | member => exact hT
  | inner => exact hT
  | item => exact hT

end Flatland
