import Verif.Props.HalfWay
import Verif.Props.RichEdits
import Verif.Proofs.RichHalfWay

/-! ## C96 – calls that raise in forms with dates and joined strings -/

namespace Flatland
open Flatland.Spec

section
variable [Runtime]

/-! ### set_flat -/

/-- **C96 (Dict.set_flat).** If `set_flat` of a Dict of any fields raises, nothing has happened or it has stopped at a field: those before it are as by
the same `set_flat` of a Dict with just these fields, those after it are as they were.  The one it stopped at is what its own `set_flat` left behind
when it raised, unless a pair has no key or the field no name. -/
theorem C96_set_flat_dict (sep : PStr) (h : Hdr) (mode : DictMode) (po : Policy) (fs : List VSchema) (n : Option PStr) (ks : List Elem)
    (hc : IsOf (.dict h mode po fs) (.dict n ks)) (ps : List FPair) (e' : Elem) (hr : Raised (richSetFlat sep (.dict h mode po fs) (.dict n ks) ps) e') :
    e' = .dict n ks ∨ ∃ ks' j, e' = .dict h.name ks' ∧ j < fs.length ∧ ks'.length = ks.length ∧ ks'.drop (j + 1) = ks.drop (j + 1) ∧
      Returned (richSetFlat sep (.dict h mode po (fs.take j)) (.dict n (ks.take j)) ps) (.dict h.name (ks'.take j)) () ∧
      ∃ f k k', fs[j]? = some f ∧ ks[j]? = some k ∧ ks'[j]? = some k' ∧
        ((k' = k ∧ (f.name = none ∨ ∃ p ∈ ps, p.1 = none)) ∨ ∃ qs start, StartsAs (under f) k start ∧ Raised (richSetFlat sep f start qs) k') := by
  obtain ⟨er, hr⟩ := hr
  have hp' := (isOf_proper _ _).1 hc
  unfold Proper under at hp'
  rw [Conforms] at hp'
  have hl : ks.length = fs.length := by rw [conformsAll_length hp'.2, unders_map, List.length_map]
  unfold richSetFlat at hr
  cases hp : dictPossibles sep h.name ps with
  | error er' =>
    rw [hp] at hr
    simp only [Prod.mk.injEq] at hr
    exact .inl hr.1.symm
  | ok poss =>
    rw [hp] at hr
    by_cases he : poss.isEmpty = true
    · simp [he] at hr
    · simp only [he, if_false, Bool.false_eq_true, Elem.kids, Prod.mk.injEq] at hr
      obtain ⟨j, hj, hlen, hd, ht, f, k, k', h1, h2, h3, h4⟩ :=
        richFieldsFlat_stopped sep fs ks (richFieldsFlat sep fs ks poss).1 poss er hl (Prod.ext rfl hr.2)
      refine .inr ⟨_, j, hr.1.symm, hj, hlen, hd, ?_, f, k, k', h1, h2, h3, ?_⟩
      · unfold Returned richSetFlat
        rw [hp]
        simp only [he, if_false, Bool.false_eq_true, Elem.kids, ht]
      · rcases h4 with ⟨h4, h5⟩ | ⟨qs, _, h5⟩
        · exact .inl ⟨h4, (accumField_error h5).imp id fun ⟨p, hp', hk⟩ => dictPossibles_nokey hp hp' hk⟩
        · exact .inr ⟨qs, _, startsAs (under f) k, er, h5⟩

/-- **C96 (List.set_flat).** If it raises, the List is empty, or the member it stopped at is the last one and those before it are as by the
same `set_flat` of a List that takes no more; the last one is what its own `set_flat` left of a new member when it raised.  However it ends, the List
has no more members than it accepts. -/
theorem C96_set_flat_list (sep : PStr) (h : Hdr) (prune : Bool) (max : Nat) (m : VSchema) (e : Elem) (ps : List FPair) :
    (∀ e', Raised (richSetFlat sep (.list h prune max m) e ps) e' →
      e' = .list h.name [] ∨ ∃ ks n, e' = .list h.name ks ∧ ks.length = n + 1 ∧ n < max ∧
        Returned (richSetFlat sep (.list h prune n m) e ps) (.list h.name ks.dropLast) () ∧
        ∃ k qs, ks.getLast? = some k ∧ Raised (richSetFlat sep m (fresh (under m)) qs) k) ∧
    (richSetFlat sep (.list h prune max m) e ps).1.kids.length ≤ max := by
  constructor
  · rintro e' ⟨er, hr⟩
    unfold richSetFlat at hr
    cases hp : listMatches sep h.name prune ps with
    | error er' =>
      rw [hp] at hr
      simp only [Prod.mk.injEq] at hr
      exact .inl hr.1.symm
    | ok ms =>
      rw [hp] at hr
      simp only [Prod.mk.injEq] at hr
      obtain ⟨n, hlen, hn, ht, k, qs, g1, g2⟩ := slotsRun_stopped _ _ _ _ _ _ (Prod.ext rfl hr.2)
      have hmax : n < max := by
        by_cases h1 : ms.isEmpty = true
        · simp [h1] at hn
        · cases prune <;> simp [h1] at hn <;> omega
      refine .inr ⟨_, n, hr.1.symm, hlen, hmax, ?_, k, qs, g1, er, g2⟩
      have hidx : (if ms.isEmpty then [] else if prune then (sortedIdx ms).take max else List.range (min (maxIdx ms + 1) max)).take n =
          (if ms.isEmpty then [] else if prune then (sortedIdx ms).take n else List.range (min (maxIdx ms + 1) n)) := by
        by_cases h1 : ms.isEmpty = true
        · simp [h1]
        · cases prune
          · simp only [h1, if_false, Bool.false_eq_true]
            rw [List.take_range]
            congr 1
            omega
          · simp only [h1, if_false, if_true, Bool.false_eq_true]
            rw [List.take_take]
            congr 1
            omega
      rw [hidx] at ht
      unfold Returned richSetFlat
      rw [hp]
      simp only [ht]
  · unfold richSetFlat
    cases hp : listMatches sep h.name prune ps with
    | error er' => simp [Elem.kids]
    | ok ms =>
      refine Nat.le_trans (slotsRun_length _ _ _ _) ?_
      by_cases h1 : ms.isEmpty = true
      · simp [h1]
      · cases prune <;> simp [h1] <;> omega

/-- **C96 (Array.set_flat).** If it raises, the members are those of the pairs before the one it stopped at; an Array of anything but scalars is empty. -/
theorem C96_set_flat_array (sep : PStr) (h : Hdr) (prune : Bool) (m : VSchema) (e : Elem) (ps : List FPair) (e' : Elem)
    (hr : Raised (richSetFlat sep (.array h prune m) e ps) e') :
    ((∀ hm t, m ≠ .plain (.scalar hm t)) → e' = .array h.name []) ∧
    (∀ hm t, m = .plain (.scalar hm t) → ∃ j, j < ps.length ∧ Returned (richSetFlat sep (.array h prune m) e (ps.take j)) e' ()) := by
  obtain ⟨er, hr⟩ := hr
  constructor
  · intro hm
    unfold richSetFlat at hr
    split at hr <;> simp_all
  · rintro hm t rfl
    unfold richSetFlat at hr
    simp only [Prod.mk.injEq] at hr
    obtain ⟨j, h1, h2⟩ := arrayMembersRun_before sep h.name prune hm t (Prod.ext rfl hr.2 : arrayMembersRun sep h.name prune hm t ps = (_, .error er))
    refine ⟨j, h1, ?_⟩
    unfold Returned richSetFlat
    simp only [h2, hr.1]

/-- **C96 (Array.set_flat).** With members that are no scalars it always raises, AssertionError, whatever the pairs are, and the Array has lost its members. -/
theorem C96_set_flat_containers (sep : PStr) (h : Hdr) (prune : Bool) (m : VSchema) (hm : ∀ hm t, m ≠ .plain (.scalar hm t)) (e : Elem) (ps : List FPair) :
    richSetFlat sep (.array h prune m) e ps = (.array h.name [], .error .assertion) := by
  unfold richSetFlat
  split <;> simp_all

/-- **C96 (dates, set_flat).** If `set_flat` of a date raises, nothing has happened or it has stopped at a part: the parts before it are as by the same
`set_flat` of a Dict with just these fields, the parts after it are as they were, and this one is what its own `set_flat` left behind. -/
theorem C96_set_flat_date (sep : PStr) (h : Hdr) (st : Bool) (fs : List (Hdr × ScalarType)) (n : Option PStr) (ks : List Elem)
    (hc : IsOf (.date h st fs) (.dict n ks)) (ps : List FPair) (e' : Elem) (hr : Raised (richSetFlat sep (.date h st fs) (.dict n ks) ps) e') :
    e' = .dict n ks ∨ ∃ ks' j, e' = .dict h.name ks' ∧ j < fs.length ∧ ks'.length = ks.length ∧ ks'.drop (j + 1) = ks.drop (j + 1) ∧
      setFlat sep (.dict h .full .subset ((fs.take j).map fun f => .scalar f.1 f.2)) (.dict n (ks.take j)) ps = .ok (.dict h.name (ks'.take j)) ∧
      ∃ f k k', fs[j]? = some f ∧ ks[j]? = some (.scalar f.1.name k) ∧ ks'[j]? = some k' ∧
        ((k' = .scalar f.1.name k ∧ (f.1.name = none ∨ ∃ p ∈ ps, p.1 = none)) ∨
          ∃ qs, Raised (setFlatRun sep (.scalar f.1 f.2) (.scalar f.1.name k) qs) k') := by
  have hp := (isOf_proper _ _).1 hc
  obtain ⟨sts, hl, he, -⟩ := date_kids hp
  unfold Proper under at hp
  unfold richSetFlat at hr
  rcases C77_set_flat_dict sep h .full .subset _ n ks hp ps e' hr with h0 | ⟨ks', j, h1, h2, h3, h4, h5, f, k, k', h6, h7, h8, h9⟩
  · exact .inl h0
  · rw [List.length_map] at h2
    rw [List.getElem?_map, List.getElem?_eq_getElem h2] at h6
    simp only [Option.map_some, Option.some.injEq] at h6
    subst h6
    refine .inr ⟨ks', j, h1, h2, h3, h4, by rw [List.map_take]; exact h5, fs[j], sts[j]'(by omega), k', List.getElem?_eq_getElem h2, ?_, h8, ?_⟩
    all_goals
      have hk : k = .scalar fs[j].1.name (sts[j]'(by omega)) := by
        rw [dateElem] at he
        cases he
        rw [partElems_zip, List.getElem?_zipWith, List.getElem?_eq_getElem h2, List.getElem?_eq_getElem (by omega)] at h7
        simpa using h7.symm
    · rw [h7, hk]
    · subst hk
      rcases h9 with h9 | ⟨qs, start, hst, h9⟩
      · exact .inl h9
      · rw [hst.2 (by simp)] at h9
        exact .inr ⟨qs, h9⟩

/-! ### set -/

/-- **C96 (Sequence.set).** If `set` of a List or Array of anything raises, it is empty, whatever was in it and wherever it raised. -/
theorem C96_set_sequence (s : VSchema) (hs : (∃ h prune max m, s = .list h prune max m) ∨ ∃ h prune m, s = .array h prune m) (e : Elem) (v : PyVal) (e' : Elem)
    (hr : Raised (richSet s e v) e') : e'.kids = [] := by
  obtain ⟨er, hr⟩ := hr
  rcases hs with ⟨h, prune, max, m, rfl⟩ | ⟨h, prune, m, rfl⟩
  all_goals
    unfold richSet at hr
    simp only [Prod.mk.injEq] at hr
    rw [← hr.1]
    exact seqSetRun_raised hr.2

/-- **C96 (JoinedString.set).** If it raises, either what it was given has no pieces and nothing has happened, or it stopped at a piece that the
member class raises for: the members are those of the pieces before it, and `set` with just these would have returned. -/
theorem C96_set_joined (h : Hdr) (c : JoinedCfg) (e : Elem) (hc : IsOf (.joined h c) e) (v : PyVal) (e' : Elem) (hr : Raised (richSet (.joined h c) e v) e') :
    (NoPieces c v ∧ e' = e) ∨ ∃ vs j x b, PiecesOf c v vs ∧ vs[j]? = some x ∧ (c.prune = true → truthy x = true) ∧
      (∃ st, Raised (scalarSet c.member .fresh x) st) ∧ Returned (richSet (.joined h c) e (.list (vs.take j))) e' b := by
  obtain ⟨er, hr⟩ := hr
  unfold richSet joinedSet at hr
  cases hv : joinedValues c v with
  | error er' =>
    rw [hv] at hr
    simp only [Prod.mk.injEq] at hr
    refine .inl ⟨joinedValues_none c v er' hv, ?_⟩
    rw [← hr.1]
    cases e <;> simp only [IsOf] at hc
    rename_i n ks
    have : memberElems (ks.map Elem.state) = ks := by
      unfold memberElems
      rw [List.map_map]
      refine (List.map_congr_left fun k hk => ?_).trans (List.map_id ks)
      obtain ⟨st, rfl⟩ := hc.2 k hk
      rfl
    rw [kidStates, Elem.kids, this, hc.1]
  | ok vs =>
    rw [hv] at hr
    simp only [Prod.mk.injEq] at hr
    obtain ⟨j, x, st, b, h1, h2, h3, h4⟩ := joinedLoop_before c (Prod.ext rfl hr.2 : joinedLoop c vs = (_, .error er))
    refine .inr ⟨vs, j, x, b, joinedValues_pieces c v vs hv, h1, h2, ⟨st, er, h3⟩, ?_⟩
    unfold Returned richSet joinedSet joinedValues
    simp only [h4, hr.1]

/-- **C96 (Compound.set).** A date's `set` lets through one exception only, NotImplementedError, and only when `set` of one of its parts does. -/
theorem C96_set_date (h : Hdr) (st : Bool) (fs : List (Hdr × ScalarType)) (e : Elem) (v : PyVal) (er : PyErr) (hr : (richSet (.date h st fs) e v).2 = .error er) :
    er = .notImplemented ∧ ∃ f ∈ fs, ∃ old w, (scalarSet f.2 old w).2 = .error .notImplemented := by
  unfold richSet at hr
  simp only at hr
  have hk : ∀ sts vs, (setKids (fs.map Prod.snd) sts vs).2 = some .notImplemented → ∃ f ∈ fs, ∃ old w, (scalarSet f.2 old w).2 = .error .notImplemented := by
    intro sts vs hs
    obtain ⟨i, t, o, w, h1, -, -, h2, -, -⟩ := setKids_stopped (Prod.ext rfl hs : setKids (fs.map Prod.snd) sts vs = (_, some .notImplemented))
    obtain ⟨f, hf, rfl⟩ := List.mem_map.1 (List.mem_of_getElem? h1)
    exact ⟨f, hf, o, w, h2⟩
  have hnot : (explodeDate st (fs.map Prod.snd) (kidStates e) v).2 = some .notImplemented ∧ er = .notImplemented := by
    unfold dateSet at hr
    split at hr
    · cases hr
    · rename_i h1
      cases hr
      exact ⟨by rw [h1], rfl⟩
    · cases hr
  refine ⟨hnot.2, ?_⟩
  have hx := hnot.1
  unfold explodeDate at hx
  split at hx
  · rename_i er' ha
    split at hx
    · exact hk _ _ hx
    · simp only [Option.some.injEq] at hx
      subst hx
      cases v <;> simp only [dateType, reduceCtorEq, Except.error.injEq] at ha
      exact absurd (temporalText_err ha) (by simp)
  · rename_i w ha
    split at hx
    · rename_i er' hp
      simp only [Option.some.injEq] at hx
      subst hx
      cases w <;> simp [dateParts] at hp
    · rename_i parts hp
      split at hx
      · cases hx
      · rename_i sts' er' hs
        split at hx
        · exact hk _ _ hx
        · simp only [Option.some.injEq] at hx
          subst hx
          exact hk _ _ (by rw [hs])

/-- **C96 (Dict.set).** If it raises, nothing has happened – the argument cannot be iterated – or it has stopped after some items of its argument:
the Dict is as by `set` with just these, and if the next item is for a field, the field is what its own `set` left behind when it raised. -/
theorem C96_set_dict (h : Hdr) (mode : DictMode) (policy : Policy) (fs : List VSchema) (e : Elem) (v : PyVal) (e' : Elem)
    (hr : Raised (richSet (.dict h mode policy fs) e v) e') :
    (NotIterable v ∧ e' = e) ∨ ∃ n ks b, Returned (richSet (.dict h mode (tolerant policy) fs) e (firstItems n v)) (.dict h.name ks) b ∧
      ((e' = .dict h.name ks ∧ ∀ l x, entriesOf v = some l → l[n]? = some x → ∀ f ∈ fs, ∀ w, ¬ VSupplies f x w) ∨
        ∃ l x i f w k start, entriesOf v = some l ∧ l[n]? = some x ∧ fs[i]? = some f ∧ VSupplies f x w ∧ StartsAs (under f) (ks[i]?.getD .absent) start ∧
          Raised (richSet f start w) k ∧ e' = .dict h.name (ks.set i k)) := by
  obtain ⟨er, hr⟩ := hr
  unfold richSet dictSetRun at hr
  cases hp : valuePairs v with
  | error er' =>
    rw [hp] at hr
    simp only [Prod.mk.injEq] at hr
    refine .inl ⟨?_, hr.1.symm⟩
    cases v <;> simp_all [NotIterable, valuePairs, pyIter]
  | ok pairs =>
    rw [hp] at hr
    simp only [Prod.mk.injEq] at hr
    have htake : ∀ n, valuePairs (firstItems n v) = .ok (pairs.take n) := by
      intro n
      cases v <;> simp_all [valuePairs, pyIter, firstItems, List.map_take] <;> rw [← hp, List.map_take]
    have hpol : ∀ ps kids seen c, dictSetLoopRun (tolerant policy) (fs.map VSchema.name) (richRunners fs) kids seen c ps =
        dictSetLoopRun policy (fs.map VSchema.name) (richRunners fs) kids seen c ps := by
      intro ps
      cases policy with
      | subset => intros; rfl
      | duck => intros; rfl
      | strict =>
        induction ps with
        | nil => intros; rfl
        | cons p ps ih =>
          intro kids seen c
          cases p with
          | error er' => rfl
          | ok kv =>
            obtain ⟨k, w⟩ := kv
            rw [dictSetLoopRun, dictSetLoopRun]
            cases fieldPos (fs.map VSchema.name) k with
            | error er' => rfl
            | ok o => cases o with
              | none => simp [tolerant]
              | some i =>
                simp only
                split
                · rfl
                · split
                  · rfl
                  · exact ih _ _ _
    have hset : ∀ n ks seen c, dictSetLoopRun policy (fs.map VSchema.name) (richRunners fs) (freshFields mode (unders fs)) [] true (pairs.take n) = (ks, .ok (seen, c)) →
        Returned (richSet (.dict h mode (tolerant policy) fs) e (firstItems n v)) (.dict h.name ks) c := by
      intro n ks seen c hl
      unfold Returned
      rw [richSet, dictSetRun, htake]
      simp only [hpol, hl]
      have : tolerant policy ≠ .strict := by cases policy <;> simp [tolerant]
      simp [this]
    cases hl : dictSetLoopRun policy (fs.map VSchema.name) (richRunners fs) (freshFields mode (unders fs)) [] true pairs with
    | mk kids x =>
      rw [hl] at hr
      right
      cases x with
      | error er' =>
        obtain ⟨n, ks, seen, c, _, ht, y, hy, hk⟩ := dictSetLoopRun_stopped _ _ _ _ _ _ _ _ _ hl
        refine ⟨n, ks, c, hset n ks seen c ht, ?_⟩
        have hent : ∀ l, entriesOf v = some l → pairs = l.map Entry.asPair := by
          intro l hl'
          have := valuePairs_entries v
          rw [hp, hl'] at this
          exact Except.ok.inj this
        rcases hk with ⟨hk, hno⟩ | ⟨k, w, i, run, b, hk1, hk2, hk3, hk4, hk5⟩
        · refine .inl ⟨by rw [← hr.1, hk], ?_⟩
          rintro l x hl' hx f hf w ⟨nm, hnm, rfl⟩
          rw [hent l hl', List.getElem?_map, hx] at hy
          simp only [Option.map_some, Option.some.injEq, Entry.asPair] at hy
          obtain ⟨i, hi⟩ : ∃ i, fieldPos (fs.map VSchema.name) (.str nm) = .ok (some i) := by
            simp only [fieldPos]
            cases hfi : (fs.map VSchema.name).findIdx? fun n => n == some nm with
            | some i => exact ⟨i, rfl⟩
            | none =>
              rw [List.findIdx?_eq_none_iff] at hfi
              have := hfi f.name (List.mem_map.2 ⟨f, hf, rfl⟩)
              simp [hnm] at this
          have h1 := hno _ _ i hy.symm hi
          rw [richRunners_eq, List.getElem?_map] at h1
          simp only [fieldPos, Except.ok.injEq] at hi
          obtain ⟨hlt, _⟩ := List.findIdx?_eq_some_iff_getElem.1 hi
          rw [List.length_map] at hlt
          rw [List.getElem?_eq_getElem hlt] at h1
          cases h1
        · right
          cases hen : entriesOf v with
          | none =>
            have := valuePairs_entries v
            rw [hp, hen] at this
            cases this
          | some l =>
            rw [hent l hen, List.getElem?_map] at hy
            cases hx : l[n]? with
            | none => rw [hx] at hy; cases hy
            | some x =>
              rw [hx, Option.map_some, hk1] at hy
              simp only [Option.some.injEq] at hy
              rw [richRunners_eq, List.getElem?_map] at hk3
              cases hfi : fs[i]? with
              | none => rw [hfi] at hk3; cases hk3
              | some f =>
                rw [hfi] at hk3
                simp only [Option.map_some, Option.some.injEq] at hk3
                subst hk3
                refine ⟨l, x, i, f, w, b, _, rfl, hx, hfi, ?_, startsAs _ _, ⟨_, hk4⟩, by rw [← hr.1, hk5]⟩
                cases x with
                | bad er' => simp [Entry.asPair] at hy
                | pair k' w' =>
                  simp only [Entry.asPair, Except.ok.injEq, Prod.mk.injEq] at hy
                  obtain ⟨rfl, rfl⟩ := hy
                  cases k' <;> simp only [fieldPos, Except.ok.injEq, reduceCtorEq] at hk2
                  rename_i t
                  obtain ⟨hlt, hb, _⟩ := List.findIdx?_eq_some_iff_getElem.1 hk2
                  refine ⟨t, ?_, rfl⟩
                  rw [List.length_map] at hlt
                  rw [List.getElem?_eq_getElem hlt] at hfi
                  cases hfi
                  simpa using hb
      | ok sc =>
        obtain ⟨seen, c⟩ := sc
        refine ⟨pairs.length, kids, c, hset _ _ seen c (by rw [List.take_length]; exact hl), .inl ⟨hr.1.symm, ?_⟩⟩
        intro l x hl' hx
        have := valuePairs_entries v
        rw [hp, hl'] at this
        rw [Except.ok.inj this, List.length_map, List.getElem?_eq_none (Nat.le_refl _)] at hx
        cases hx

/-! ### set_default -/

/-- **C96 (Dict.set_default).** If it raises and the Dict has no default of its own, it has stopped at a field: those before it have their defaults, those after
it are as they were, and this one is what its own `set_default` left behind. -/
theorem C96_default_dict (h : Hdr) (po : Policy) (fs : List VSchema) (n : Option PStr) (ks : List Elem) (hd : h.dflt = none ∨ h.dflt = some .none)
    (hc : IsOf (.dict h .full po fs) (.dict n ks)) (e' : Elem) (hr : Raised (richDefault (.dict h .full po fs) (.dict n ks)) e') :
    ∃ ks' j, e' = .dict h.name ks' ∧ j < fs.length ∧ ks'.length = ks.length ∧ ks'.drop (j + 1) = ks.drop (j + 1) ∧
      Returned (richDefault (.dict h .full po (fs.take j)) (.dict n (ks.take j))) (.dict h.name (ks'.take j)) () ∧
      ∃ f k k', fs[j]? = some f ∧ ks[j]? = some k ∧ ks'[j]? = some k' ∧ Raised (richDefault f k) k' := by
  obtain ⟨er, hr⟩ := hr
  have hp := (isOf_proper _ _).1 hc
  unfold Proper under at hp
  rw [Conforms] at hp
  have hl : ks.length = fs.length := by rw [conformsAll_length hp.2, unders_map, List.length_map]
  have h1 : (.dict h.name (richDefaultKids fs ks).1, (richDefaultKids fs ks).2) = (e', Except.error er) := by
    unfold richDefault at hr
    rcases hd with hd | hd <;> rw [hd] at hr <;> exact hr
  simp only [Prod.mk.injEq] at h1
  obtain ⟨j, hj, hlen, hdr, ht, hx⟩ := richDefaultKids_stopped fs ks (richDefaultKids fs ks).1 er hl (Prod.ext rfl h1.2)
  refine ⟨_, j, h1.1.symm, hj, hlen, hdr, ?_, hx⟩
  unfold Returned richDefault
  rcases hd with hd | hd <;> rw [hd] <;> simp only [Elem.kids, ht]

/-- **C96 (SparseDict.set_default).** If it raises and the SparseDict has no default of its own, it has stopped at a required field whose `set_default` raises:
the ones before it have their defaults, this one and the ones after it are as in a new SparseDict. -/
theorem C96_default_sparse (h : Hdr) (mode : DictMode) (hm : mode ≠ .full) (po : Policy) (fs : List VSchema) (e : Elem) (hd : h.dflt = none ∨ h.dflt = some .none)
    (e' : Elem) (hr : Raised (richDefault (.dict h mode po fs) e) e') :
    mode = .sparseRequired ∧ ∃ ks' j f, e' = .dict h.name ks' ∧ fs[j]? = some f ∧ f.hdr.optional = false ∧
      (∃ k, Raised (richDefault f (fresh (under f))) k) ∧ fresh (under (.dict h mode po (fs.drop j))) = .dict h.name (ks'.drop j) ∧
      Returned (richDefault (.dict h mode po (fs.take j)) e) (.dict h.name (ks'.take j)) () := by
  obtain ⟨er, hr⟩ := hr
  cases mode with
  | full => exact absurd rfl hm
  | sparse =>
    unfold richDefault at hr
    rcases hd with hd | hd <;> rw [hd] at hr <;> simp at hr
  | sparseRequired =>
    refine ⟨rfl, ?_⟩
    have h1 : (.dict h.name (richDefaultRequired fs).1, (richDefaultRequired fs).2) = (e', Except.error er) := by
      unfold richDefault at hr
      rcases hd with hd | hd <;> rw [hd] at hr <;> exact hr
    simp only [Prod.mk.injEq] at h1
    obtain ⟨j, f, hf, ho, hk, hfr, ht⟩ := richDefaultRequired_stopped fs (richDefaultRequired fs).1 er (Prod.ext rfl h1.2)
    refine ⟨_, j, f, h1.1.symm, hf, ho, hk, by rw [under, fresh, hfr], ?_⟩
    unfold Returned richDefault
    rcases hd with hd | hd <;> rw [hd] <;> simp only [ht]

/-- **C96 (List.set_default).** If it raises, a List with a number for its default has one member, what the member's own `set_default` left behind; any other
List and an Array whose default cannot be iterated are empty; an Array with other defaults has the members before the one whose `set` raised. -/
theorem C96_default_sequence (h : Hdr) (prune : Bool) (max : Nat) (m : VSchema) (e e' : Elem) :
    (Raised (richDefault (.list h prune max m) e) e' →
      ∃ d, h.dflt = some d ∧ (e' = .list h.name [] ∨
        (∃ n, defaultCount d = some n ∧ 0 < n) ∧ ∃ k, Raised (richDefault m (fresh (under m))) k ∧ e' = .list h.name [k])) ∧
    (Raised (richDefault (.array h prune m) e) e' →
      ∃ d, h.dflt = some d ∧ ((NotIterable d ∧ e' = .array h.name []) ∨ ∃ vs j x k b, itemsOf d = some vs ∧ vs[j]? = some x ∧
        Raised (richSet m (fresh (under m)) x) k ∧ Returned (richSet (.array h prune m) e (.list (vs.take j))) e' b)) := by
  constructor
  · rintro ⟨er, hr⟩
    unfold richDefault at hr
    split at hr
    · cases hr
    · cases hr
    · rename_i d hd hdd
      refine ⟨d, hdd, ?_⟩
      split at hr
      · rename_i n hn
        simp only [Prod.mk.injEq] at hr
        cases n with
        | zero => simp [repeatRun] at hr
        | succ n =>
          right
          refine ⟨⟨_, hn, by omega⟩, ?_⟩
          have : ∀ n, (repeatRun (richDefault m (fresh (under m))) n).2 = .error er → (richDefault m (fresh (under m))).2 = .error er := by
            intro n
            induction n with
            | zero => simp [repeatRun]
            | succ n ih =>
              unfold repeatRun
              split
              · rename_i er' he; rw [he]; exact id
              · exact ih
          have he := this _ hr.2
          refine ⟨(richDefault m (fresh (under m))).1, ⟨er, Prod.ext rfl he⟩, ?_⟩
          rw [← hr.1]
          unfold repeatRun
          rw [he]
      · left
        simp only [forget, Prod.mk.injEq] at hr
        have h2 : (seqSetRun (richSet m (fresh (under m))) d).2 = .error er := by
          have h3 := hr.2
          unfold richSet at h3
          cases h4 : (seqSetRun (richSet m (fresh (under m))) d).2 with
          | error x => simp only [h4] at h3; simpa [Except.map] using h3
          | ok x => simp only [h4] at h3; simp [Except.map] at h3
        rw [← hr.1]
        unfold richSet
        simp only [seqSetRun_raised h2]
  · rintro ⟨er, hr⟩
    unfold richDefault at hr
    split at hr
    · cases hr
    · cases hr
    · rename_i d hd hdd
      refine ⟨d, hdd, ?_⟩
      split at hr
      · rename_i er' hp
        left
        simp only [Prod.mk.injEq] at hr
        refine ⟨?_, hr.1.symm⟩
        cases d <;> simp_all [NotIterable, pyIter]
      · rename_i vs hp
        right
        simp only [Prod.mk.injEq] at hr
        obtain ⟨j, x, k, b, h1, h2, h3⟩ := extendRun_before (Prod.ext rfl hr.2 : extendRun (richSet m (fresh (under m))) vs = (_, .error er))
        refine ⟨vs, j, x, k, b, ?_, h1, ⟨er, h2⟩, ?_⟩
        · rw [pyIter_items] at hp
          cases hi : itemsOf d with
          | none => rw [hi] at hp; cases hp
          | some l => rw [hi] at hp; cases hp; rfl
        · unfold Returned richSet seqSetRun
          simp only [pyIter, h3, hr.1]

/-- **C96 (JoinedString.set_default).** If it raises, there is a default; a default that cannot be iterated leaves the string empty, otherwise the members are those
of the items before the one whose `set` raised.  (A text is a default of its characters.) -/
theorem C96_default_joined (h : Hdr) (c : JoinedCfg) (e e' : Elem) (hr : Raised (richDefault (.joined h c) e) e') :
    ∃ d, h.dflt = some d ∧ ((NotIterable d ∧ e' = .array h.name []) ∨ ∃ vs j x st ms, itemsOf d = some vs ∧ vs[j]? = some x ∧
      Raised (scalarSet c.member .fresh x) st ∧ e' = .array h.name (ms.map fun m => .scalar none m) ∧
      List.Forall₂ (fun v m => ∃ ok, scalarSet c.member .fresh v = (m, .ok ok)) (vs.take j) ms) := by
  unfold richDefault at hr
  obtain ⟨er, hr⟩ := hr
  unfold setDefaultRun at hr
  split at hr
  · cases hr
  · cases hr
  · rename_i d hd hdd
    refine ⟨d, hdd, ?_⟩
    split at hr
    · rename_i er' hp
      left
      simp only [Prod.mk.injEq] at hr
      refine ⟨?_, hr.1.symm⟩
      cases d <;> simp_all [NotIterable, pyIter]
    · rename_i vs hp
      right
      simp only [Prod.mk.injEq] at hr
      obtain ⟨j, x, k, b, h1, h2, h3⟩ := extendRun_before (Prod.ext rfl hr.2 : extendRun (setRun (joinedMember c) (fresh (joinedMember c))) vs = (_, .error er))
      have hm : ∀ v, setRun (joinedMember c) (fresh (joinedMember c)) v = (.scalar none (scalarSet c.member .fresh v).1, (scalarSet c.member .fresh v).2) := by
        intro v; rfl
      have hall : ∀ (ws : List PyVal) (ks : List Elem) (b : Bool), membersRun (setRun (joinedMember c) (fresh (joinedMember c))) ws = .ok (ks, b) →
          ∃ ms : List ScalarState, ks = ms.map (fun m => .scalar none m) ∧ List.Forall₂ (fun v m => ∃ ok, scalarSet c.member .fresh v = (m, .ok ok)) ws ms := by
        intro ws
        induction ws with
        | nil => intro ks b h; simp only [membersRun, Except.ok.injEq, Prod.mk.injEq] at h; exact ⟨[], h.1.symm, .nil⟩
        | cons w ws ih =>
          intro ks b h
          rw [membersRun] at h
          simp only [hm] at h
          cases hw : scalarSet c.member .fresh w with
          | mk st y =>
            rw [hw] at h
            cases y with
            | error er' => cases h
            | ok ok =>
              cases hr' : membersRun (setRun (joinedMember c) (fresh (joinedMember c))) ws with
              | error er' => rw [hr'] at h; cases h
              | ok r =>
                obtain ⟨ms, h1, h2⟩ := ih r.1 r.2 hr'
                rw [hr'] at h
                simp only [Except.ok.injEq, Prod.mk.injEq] at h
                exact ⟨st :: ms, by rw [← h.1, h1]; rfl, .cons ⟨ok, hw⟩ h2⟩
      obtain ⟨ms, h4, h5⟩ := hall _ _ _ h3
      rw [hm] at h2
      simp only [Prod.mk.injEq] at h2
      refine ⟨vs, j, x, (scalarSet c.member .fresh x).1, ms, ?_, h1, ⟨er, Prod.ext rfl h2.2⟩, hr.1.symm.trans (congrArg (Elem.array h.name) h4), h5⟩
      rw [pyIter_items] at hp
      cases hi : itemsOf d with
      | none => rw [hi] at hp; cases hp
      | some l => rw [hi] at hp; cases hp; rfl

end
/-! ### concrete cases -/

section
attribute [local instance] Runtime.ascii

/-- a comma-separated string of members whose adapt() raises ValueError for 'boom' -/
def touchyTags [Runtime] : JoinedCfg := { member := touchy }

/-- a trip: a date, tags that may raise, a note, and a List of such tags -/
def touchyTrip [Runtime] : VSchema := .dict ⟨none, true, .none⟩ .full .subset
  [dayClass ['d'], .joined ⟨some ['t'], true, .none⟩ touchyTags, .plain (.scalar ⟨some ['n'], true, .none⟩ (stringType true)),
   .list ⟨some ['l'], true, .none⟩ true 10 (.joined ⟨some ['x'], true, .none⟩ touchyTags)]

/-- the trip on the 4th of March, with the tag 'a' and the note 'hi' -/
def touchyStart [Runtime] : Elem :=
  (richSet touchyTrip (fresh (under touchyTrip)) (.dict [(['d'], .date 2011 3 4), (['t'], .list [.str ['a']]), (['n'], .str ['h', 'i'])])).1

/-- all texts in a form -/
def formTexts : Elem → List PStr := fun e => e.kids.flatMap fun k => match k with
  | .scalar _ st => [st.u]
  | k => k.kids.flatMap fun m => match m with
    | .scalar _ st => [st.u]
    | m => m.kids.map fun x => x.state.u

example : formTexts touchyStart = ["2011".toList, "03".toList, "04".toList, ['a'], ['h', 'i']] := by decide +kernel

/-- `set_flat` stops at the tags: the date is new, of the tags the one before 'boom' is left, the note is as it was -/
example : let ps : List FPair := [(some "d_year".toList, "2012".toList), (some ['t'], "b,boom,c".toList), (some ['n'], ['y', 'o'])]
    let r := richSetFlat ['_'] touchyTrip touchyStart ps
    Raised r r.1 ∧ formTexts r.1 = ["2012".toList, "03".toList, "04".toList, ['b'], ['h', 'i']] := ⟨⟨.value, rfl⟩, by decide +kernel⟩

/-- the second row of the List raises: it is the last one -/
example : let ps : List FPair := [(some "l_0_x".toList, ['b']), (some "l_1_x".toList, "c,boom".toList), (some "l_2_x".toList, ['d'])]
    let r := richSetFlat ['_'] touchyTrip touchyStart ps
    Raised r r.1 ∧ formTexts r.1 = ["2011".toList, "03".toList, "04".toList, ['a'], ['h', 'i'], ['b'], ['c']] := ⟨⟨.value, rfl⟩, by decide +kernel⟩

/-- `set` makes everything blank first; the arguments up to the raising one are there, and the members before it -/
example : let v : PyVal := .list [.list [.str ['n'], .str ['z']], .list [.str ['t'], .str "b,boom,c".toList], .list [.str ['d'], .date 2012 5 6]]
    let r := richSet touchyTrip touchyStart v
    Raised r r.1 ∧ formTexts r.1 = [[], [], [], ['b'], ['z']] := ⟨⟨.value, rfl⟩, by decide +kernel⟩

/-- a List of joined strings that raises in its second member is empty; a joined string keeps its members when there is nothing to split by -/
example : let l : VSchema := .list ⟨some ['l'], true, .none⟩ true 10 (.joined ⟨some ['x'], true, .none⟩ touchyTags)
    let c : JoinedCfg := { separator := [], member := stringType true }
    let e : Elem := .array (some ['j']) [.scalar none (scalarSet (stringType true) .fresh (.str ['a'])).1]
    Raised (richSet l (fresh (under l)) (.list [.str ['a'], .str "b,boom".toList])) (.list (some ['l']) []) ∧
    Raised (richSet (.joined ⟨some ['j'], true, .none⟩ c) e (.str ['b'])) e ∧ NoPieces c (.str ['b']) := ⟨⟨.value, rfl⟩, ⟨.value, rfl⟩, rfl, rfl⟩

/-- a date with a part that is a class without adapt() -/
example : let bare : ScalarType := { adapt := fun _ => .error .notImplemented, serialize := fun _ => .ok [] }
    let s : VSchema := .date ⟨some ['d'], true, .none⟩ true [(⟨some ['y'], true, .none⟩, integerType true 4), (⟨some ['m'], true, .none⟩, bare), (⟨some ['d'], true, .none⟩, bare)]
    (richSet s (fresh (under s)) (.date 2011 3 4)).2 = .error .notImplemented ∧
    (richSet s (fresh (under s)) (.date 2011 3 4)).1.kids.map (fun k => k.state.u) = ["2011".toList, [], []] := ⟨rfl, by decide +kernel⟩

/-- a date, tags and a note with defaults, those of the tags raising -/
def touchyDefaults [Runtime] : VSchema := .dict ⟨none, true, .none⟩ .full .subset
  [.date ⟨some ['d'], true, some (.date 2011 3 4)⟩ true
     [(⟨some "year".toList, true, .none⟩, integerType true 4), (⟨some "month".toList, true, .none⟩, integerType true 2), (⟨some "day".toList, true, .none⟩, integerType true 2)],
   .joined ⟨some ['t'], true, some (.list [.str ['a'], .str "boom".toList, .str ['c']])⟩ touchyTags,
   .plain (.scalar ⟨some ['n'], true, some (.str ['x'])⟩ (stringType true))]

/-- the date has its default, of the tags those before 'boom' are there, what comes after is as it was -/
example : Raised (richDefault touchyDefaults (fresh (under touchyDefaults))) (richDefault touchyDefaults (fresh (under touchyDefaults))).1 ∧
    formTexts (richDefault touchyDefaults (fresh (under touchyDefaults))).1 = ["2011".toList, "03".toList, "04".toList, ['a'], []] :=
  ⟨⟨.value, rfl⟩, by decide +kernel⟩

end

end Flatland
