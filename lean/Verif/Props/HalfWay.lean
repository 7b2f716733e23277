import Verif.Spec.HalfWay
import Verif.Proofs.HalfWay
import Verif.Proofs.ValueSet
import Verif.Proofs.Order
import Verif.Proofs.Scalars
import Verif.Proofs.SetFlat

/-! ## C77 – calls that raise leave a usable element -/

namespace Flatland
open Spec

section
variable [Runtime]

/-- **C77 (same calls).** The calls told with what they leave behind return when `set`, `set_flat` and `set_default` of the other
theorems return, with the same element and result, and raise the same exceptions. -/
theorem C77_same_calls (sep : PStr) (s : Schema) (e : Elem) (hc : Conforms s e) :
    (∀ v, setVal s v = (setRun s e v).2.map fun b => ((setRun s e v).1, b)) ∧
    (∀ ps, setFlat sep s e ps = (setFlatRun sep s e ps).2.map fun _ => (setFlatRun sep s e ps).1) ∧
    setDefault s e = (setDefaultRun s e).2.map fun _ => (setDefaultRun s e).1 :=
  ⟨fun v => (setRun_both s e v).symm, fun ps => (setFlatRun_outcome sep s e ps).symm, (setDefaultRun_outcome s e hc).symm⟩

/-- **C77.** After any calls of `set`, `set_flat` and `set_default`, with any arguments, whether they returned or raised and wherever they
raised, a new element is still a proper element of its class: the children of Dicts are those of its fields, of the right classes and none missing
that has to be there, members of Lists and Arrays are of the member class. -/
theorem C77_well_formed (sep : PStr) (s : Schema) (ops : List FillOp) : Conforms s (fillRun sep s (fresh s) ops) :=
  fillRun_conforms sep s ops (fresh s) (fresh_conforms s)

/-- **C77 (nothing lingers).** What was done to an element before, and whether it raised half way, does not matter to `set`: it returns or
raises as it does on a new element, and if it returns leaves what it leaves there. -/
theorem C77_recovers (sep : PStr) (s : Schema) (ops : List FillOp) (v : PyVal) :
    (∀ e b, Returned (setRun s (fresh s) v) e b → Returned (setRun s (fillRun sep s (fresh s) ops) v) e b) ∧
    (∀ er, (setRun s (fresh s) v).2 = .error er → (setRun s (fillRun sep s (fresh s) ops) v).2 = .error er) := by
  have h := (setRun_both s (fillRun sep s (fresh s) ops) v).trans (setRun_both s (fresh s) v).symm
  generalize setRun s (fillRun sep s (fresh s) ops) v = r at h
  generalize setRun s (fresh s) v = q at h
  rcases r with ⟨a, x | x⟩ <;> rcases q with ⟨b, y | y⟩ <;> simp_all [Ended.both, Except.map, Returned]

omit [Runtime] in
theorem accumField_error {name : Option PStr} : ∀ {ps : List FPair} {er : PyErr}, accumField name ps = .error er → name = none ∨ ∃ p ∈ ps, p.1 = none
  | [], er, h => by simp [accumField] at h
  | (.none, v) :: ps, er, h => .inr ⟨_, List.mem_cons_self, rfl⟩
  | (some k, v) :: ps, er, h => by
    cases name with
    | none => exact .inl rfl
    | some f =>
      rw [accumField] at h
      cases h1 : accumField (some f) ps with
      | error er' =>
        rcases accumField_error h1 with h2 | ⟨p, hp, hk⟩
        · exact .inl h2
        · exact .inr ⟨p, List.mem_cons_of_mem _ hp, hk⟩
      | ok r => rw [h1] at h; simp [bind, Except.bind] at h

omit [Runtime] in
theorem dictPossibles_nokey {sep : PStr} {name : Option PStr} {ps poss : List FPair} (h : dictPossibles sep name ps = .ok poss) {p : FPair} (hp : p ∈ poss)
    (hk : p.1 = none) : ∃ q ∈ ps, q.1 = none := by
  cases name with
  | none => simp only [dictPossibles, Except.ok.injEq] at h; subst h; exact ⟨p, hp, hk⟩
  | some n =>
    simp only [dictPossibles, possibles_go] at h
    split at h
    · cases h
    · cases h
      obtain ⟨q, hq, hb⟩ := List.mem_filterMap.1 hp
      unfold below at hb
      split at hb <;> (try split at hb) <;> cases hb <;> cases hk

/-- **C77 (Dict.set_flat).** If it raises, nothing has happened or it has stopped at a field: those before it are as by
the same `set_flat` of a Dict with just these fields, those after it are as they were.  The one it stopped at is what its own `set_flat` left behind when it raised,
unless a pair has no key or the field no name. -/
theorem C77_set_flat_dict (sep : PStr) (h : Hdr) (mode : DictMode) (po : Policy) (fs : List Schema) (n : Option PStr) (ks : List Elem)
    (hc : Conforms (.dict h mode po fs) (.dict n ks)) (ps : List FPair) (e' : Elem) (hr : Raised (setFlatRun sep (.dict h mode po fs) (.dict n ks) ps) e') :
    e' = .dict n ks ∨ ∃ ks' j, e' = .dict h.name ks' ∧ j < fs.length ∧ ks'.length = ks.length ∧ ks'.drop (j + 1) = ks.drop (j + 1) ∧
      setFlat sep (.dict h mode po (fs.take j)) (.dict n (ks.take j)) ps = .ok (.dict h.name (ks'.take j)) ∧
      ∃ f k k', fs[j]? = some f ∧ ks[j]? = some k ∧ ks'[j]? = some k' ∧
        ((k' = k ∧ (f.name = none ∨ ∃ p ∈ ps, p.1 = none)) ∨ ∃ qs start, StartsAs f k start ∧ Raised (setFlatRun sep f start qs) k') := by
  obtain ⟨er, hr⟩ := hr
  have hl : ks.length = fs.length := conformsAll_length hc.2
  unfold setFlatRun at hr
  cases hp : dictPossibles sep h.name ps with
  | error er' =>
    rw [hp] at hr
    simp only [Prod.mk.injEq] at hr
    exact .inl hr.1.symm
  | ok poss =>
    rw [hp] at hr
    by_cases he : poss.isEmpty = true
    · simp [he] at hr
    · simp only [he, if_false, Bool.false_eq_true, Elem.kids, Prod.mk.injEq] at hr
      obtain ⟨j, hj, hlen, hd, ht, f, k, k', h1, h2, h3, h4⟩ := fieldsRun_stopped sep fs ks (fieldsRun sep fs ks poss).1 poss er hl (Prod.ext rfl hr.2)
      refine .inr ⟨_, j, hr.1.symm, hj, hlen, hd, ?_, f, k, k', h1, h2, h3, ?_⟩
      rotate_left
      · rcases h4 with ⟨h4, h5⟩ | ⟨qs, _, h5⟩
        · exact .inl ⟨h4, (accumField_error h5).imp id fun ⟨p, hp', hk⟩ => dictPossibles_nokey hp hp' hk⟩
        · exact .inr ⟨qs, _, startsAs f k, er, h5⟩
      rw [← setFlatRun_outcome, setFlatRun, hp]
      simp only [he, if_false, Bool.false_eq_true, Elem.kids, ht]
      rfl

/-- **C77 (List.set_flat).** If it raises, the List is empty, or the member it stopped at is the last one and those before it are as by the
same `set_flat` of a List that takes no more; the last one is what its own `set_flat` left of a new member when it raised. -/
theorem C77_set_flat_list (sep : PStr) (h : Hdr) (prune : Bool) (max : Nat) (m : Schema) (e : Elem) (ps : List FPair) (e' : Elem)
    (hr : Raised (setFlatRun sep (.list h prune max m) e ps) e') :
    e' = .list h.name [] ∨ ∃ ks n, e' = .list h.name ks ∧ ks.length = n + 1 ∧ n < max ∧
      setFlat sep (.list h prune n m) e ps = .ok (.list h.name ks.dropLast) ∧ ∃ k qs, ks.getLast? = some k ∧ Raised (setFlatRun sep m (fresh m) qs) k := by
  obtain ⟨er, hr⟩ := hr
  unfold setFlatRun at hr
  cases hp : listMatches sep h.name prune ps with
  | error er' =>
    rw [hp] at hr
    simp only [Prod.mk.injEq] at hr
    exact .inl hr.1.symm
  | ok ms =>
    rw [hp] at hr
    simp only [Prod.mk.injEq] at hr
    obtain ⟨n, hlen, hn, ht, k, qs, g1, g2⟩ := slotsRun_stopped _ _ _ _ _ _ (Prod.ext rfl hr.2)
    have hmax : n < max := by
      by_cases h1 : ms.isEmpty = true
      · simp [h1] at hn
      · cases prune <;> simp [h1] at hn <;> omega
    refine .inr ⟨_, n, hr.1.symm, hlen, hmax, ?_, k, qs, g1, er, g2⟩
    have hidx : (if ms.isEmpty then [] else if prune then (sortedIdx ms).take max else List.range (min (maxIdx ms + 1) max)).take n =
        (if ms.isEmpty then [] else if prune then (sortedIdx ms).take n else List.range (min (maxIdx ms + 1) n)) := by
      by_cases h1 : ms.isEmpty = true
      · simp [h1]
      · cases prune
        · simp only [h1, if_false, Bool.false_eq_true]
          rw [List.take_range]
          congr 1
          omega
        · simp only [h1, if_false, if_true, Bool.false_eq_true]
          rw [List.take_take]
          congr 1
          omega
    rw [hidx] at ht
    rw [← setFlatRun_outcome, setFlatRun, hp]
    simp only [ht]
    rfl

/-- **C77 (bound).** However it ends, a List has no more members after `set_flat` than it accepts. -/
theorem C77_bounded (sep : PStr) (h : Hdr) (prune : Bool) (max : Nat) (m : Schema) (e : Elem) (ps : List FPair) :
    (setFlatRun sep (.list h prune max m) e ps).1.kids.length ≤ max := by
  unfold setFlatRun
  cases hp : listMatches sep h.name prune ps with
  | error er' => simp [Elem.kids]
  | ok ms =>
    refine Nat.le_trans (slotsRun_length _ _ _ _) ?_
    by_cases h1 : ms.isEmpty = true
    · simp [h1]
    · cases prune <;> simp [h1] <;> omega

/-- **C77 (Array.set_flat).** With members that are no scalars it always raises, AssertionError, whatever the pairs are, and the Array has lost its members. -/
theorem C77_set_flat_containers (sep : PStr) (h : Hdr) (prune : Bool) (m : Schema) (hm : ∀ hm t, m ≠ .scalar hm t) (e : Elem) (ps : List FPair) :
    setFlat sep (.array h prune m) e ps = .error .assertion ∧ setFlatRun sep (.array h prune m) e ps = (.array h.name [], .error .assertion) := by
  constructor
  · unfold setFlat
    split <;> simp_all
  · unfold setFlatRun
    split <;> simp_all

/-- **C77 (Array.set_flat).** If it raises, the members are those of the pairs before the one it stopped at; an Array of anything but scalars is empty. -/
theorem C77_set_flat_array (sep : PStr) (h : Hdr) (prune : Bool) (m : Schema) (e : Elem) (ps : List FPair) (e' : Elem)
    (hr : Raised (setFlatRun sep (.array h prune m) e ps) e') :
    ((∀ hm t, m ≠ .scalar hm t) → e' = .array h.name []) ∧
    (∀ hm t, m = .scalar hm t → ∃ j, j < ps.length ∧ setFlat sep (.array h prune m) e (ps.take j) = .ok e') := by
  obtain ⟨er, hr⟩ := hr
  constructor
  · intro hm
    unfold setFlatRun at hr
    split at hr <;> simp_all
  · rintro hm t rfl
    unfold setFlatRun at hr
    simp only [Prod.mk.injEq] at hr
    obtain ⟨j, h1, h2⟩ := arrayMembersRun_before sep h.name prune hm t (Prod.ext rfl hr.2 : arrayMembersRun sep h.name prune hm t ps = (_, .error er))
    refine ⟨j, h1, ?_⟩
    rw [← setFlatRun_outcome, setFlatRun]
    simp only [h2, hr.1]
    rfl

/-- **C77 (Sequence.set).** If it raises, the List or Array is empty, whatever was in it and wherever it raised. -/
theorem C77_set_sequence (s : Schema) (hs : (∃ h prune max m, s = .list h prune max m) ∨ ∃ h prune m, s = .array h prune m) (e : Elem) (v : PyVal) (e' : Elem)
    (hr : Raised (setRun s e v) e') : e'.kids = [] := by
  obtain ⟨er, hr⟩ := hr
  have key : ∀ run : PyVal → Ended Elem Bool, (seqSetRun run v).2 = .error er → (seqSetRun run v).1 = [] := by
    intro run h
    unfold seqSetRun at h ⊢
    split
    · rfl
    · split
      · rfl
      · rfl
      · rename_i h1 _ _ _ h2; simp [h1, h2] at h
  rcases hs with ⟨h, prune, max, m, rfl⟩ | ⟨h, prune, m, rfl⟩
  all_goals
    unfold setRun at hr
    simp only [Prod.mk.injEq] at hr
    rw [← hr.1]
    exact key _ hr.2

/-- **C77 (Dict.set).** If it raises, nothing has happened – the argument cannot be iterated – or it has stopped after some items of its argument:
the Dict is as by `set` with just these, and if the next item is for a field, the field is what its own `set` left behind when it raised. -/
theorem C77_set_dict (h : Hdr) (mode : DictMode) (policy : Policy) (fs : List Schema) (e : Elem) (v : PyVal) (e' : Elem)
    (hr : Raised (setRun (.dict h mode policy fs) e v) e') :
    (NotIterable v ∧ e' = e) ∨ ∃ n ks b, setVal (.dict h mode (tolerant policy) fs) (firstItems n v) = .ok (.dict h.name ks, b) ∧
      ((e' = .dict h.name ks ∧ ∀ l x, entriesOf v = some l → l[n]? = some x → ∀ f ∈ fs, ∀ w, ¬ Supplies f x w) ∨
        ∃ l x i f w k start, entriesOf v = some l ∧ l[n]? = some x ∧ fs[i]? = some f ∧ Supplies f x w ∧ StartsAs f (ks[i]?.getD .absent) start ∧
          Raised (setRun f start w) k ∧ e' = .dict h.name (ks.set i k)) := by
  obtain ⟨er, hr⟩ := hr
  unfold setRun dictSetRun at hr
  cases hp : valuePairs v with
  | error er' =>
    rw [hp] at hr
    simp only [Prod.mk.injEq] at hr
    refine .inl ⟨?_, hr.1.symm⟩
    cases v <;> simp_all [NotIterable, valuePairs, pyIter]
  | ok pairs =>
    rw [hp] at hr
    simp only [Prod.mk.injEq] at hr
    have htake : ∀ n, valuePairs (firstItems n v) = .ok (pairs.take n) := by
      intro n
      cases v <;> simp_all [valuePairs, pyIter, firstItems, List.map_take] <;> rw [← hp, List.map_take]
    have hpol : ∀ ps kids seen c, dictSetLoopRun (tolerant policy) (fs.map Schema.name) (fieldRunners fs) kids seen c ps =
        dictSetLoopRun policy (fs.map Schema.name) (fieldRunners fs) kids seen c ps := by
      intro ps
      cases policy with
      | subset => intros; rfl
      | duck => intros; rfl
      | strict =>
        induction ps with
        | nil => intros; rfl
        | cons p ps ih =>
          intro kids seen c
          cases p with
          | error er' => rfl
          | ok kv =>
            obtain ⟨k, w⟩ := kv
            rw [dictSetLoopRun, dictSetLoopRun]
            cases fieldPos (fs.map Schema.name) k with
            | error er' => rfl
            | ok o => cases o with
              | none => simp [tolerant]
              | some i =>
                simp only
                split
                · rfl
                · split
                  · rfl
                  · exact ih _ _ _
    have hset : ∀ n ks seen c, dictSetLoopRun policy (fs.map Schema.name) (fieldRunners fs) (freshFields mode fs) [] true (pairs.take n) = (ks, .ok (seen, c)) →
        setVal (.dict h mode (tolerant policy) fs) (firstItems n v) = .ok (.dict h.name ks, c) := by
      intro n ks seen c hl
      rw [← setRun_both _ e, setRun, dictSetRun, htake]
      simp only [hpol, hl]
      have : tolerant policy ≠ .strict := by cases policy <;> simp [tolerant]
      simp [this, Ended.both, Except.map]
    cases hl : dictSetLoopRun policy (fs.map Schema.name) (fieldRunners fs) (freshFields mode fs) [] true pairs with
    | mk kids x =>
      rw [hl] at hr
      right
      cases x with
      | error er' =>
        obtain ⟨n, ks, seen, c, _, ht, y, hy, hk⟩ := dictSetLoopRun_stopped _ _ _ _ _ _ _ _ _ hl
        refine ⟨n, ks, c, hset n ks seen c ht, ?_⟩
        have hent : ∀ l, entriesOf v = some l → pairs = l.map Entry.asPair := by
          intro l hl'
          have := valuePairs_entries v
          rw [hp, hl'] at this
          exact Except.ok.inj this
        rcases hk with ⟨hk, hno⟩ | ⟨k, w, i, run, b, hk1, hk2, hk3, hk4, hk5⟩
        · refine .inl ⟨by rw [← hr.1, hk], ?_⟩
          rintro l x hl' hx f hf w ⟨nm, hnm, rfl⟩
          rw [hent l hl', List.getElem?_map, hx] at hy
          simp only [Option.map_some, Option.some.injEq, Entry.asPair] at hy
          obtain ⟨i, hi⟩ : ∃ i, fieldPos (fs.map Schema.name) (.str nm) = .ok (some i) := by
            simp only [fieldPos]
            cases hfi : (fs.map Schema.name).findIdx? fun n => n == some nm with
            | some i => exact ⟨i, rfl⟩
            | none =>
              rw [List.findIdx?_eq_none_iff] at hfi
              have := hfi f.name (List.mem_map.2 ⟨f, hf, rfl⟩)
              simp [hnm] at this
          have h1 := hno _ _ i hy.symm hi
          rw [fieldRunners_eq, List.getElem?_map] at h1
          simp only [fieldPos, Except.ok.injEq] at hi
          obtain ⟨hlt, _⟩ := List.findIdx?_eq_some_iff_getElem.1 hi
          rw [List.length_map] at hlt
          rw [List.getElem?_eq_getElem hlt] at h1
          cases h1
        · right
          cases hen : entriesOf v with
          | none =>
            have := valuePairs_entries v
            rw [hp, hen] at this
            cases this
          | some l =>
            rw [hent l hen, List.getElem?_map] at hy
            cases hx : l[n]? with
            | none => rw [hx] at hy; cases hy
            | some x =>
              rw [hx, Option.map_some, hk1] at hy
              simp only [Option.some.injEq] at hy
              rw [fieldRunners_eq, List.getElem?_map] at hk3
              cases hfi : fs[i]? with
              | none => rw [hfi] at hk3; cases hk3
              | some f =>
                rw [hfi] at hk3
                simp only [Option.map_some, Option.some.injEq] at hk3
                subst hk3
                refine ⟨l, x, i, f, w, b, _, rfl, hx, hfi, ?_, startsAs _ _, ⟨_, hk4⟩, by rw [← hr.1, hk5]⟩
                cases x with
                | bad er' => simp [Entry.asPair] at hy
                | pair k' w' =>
                  simp only [Entry.asPair, Except.ok.injEq, Prod.mk.injEq] at hy
                  obtain ⟨rfl, rfl⟩ := hy
                  cases k' <;> simp only [fieldPos, Except.ok.injEq, reduceCtorEq] at hk2
                  rename_i t
                  obtain ⟨hlt, hb, _⟩ := List.findIdx?_eq_some_iff_getElem.1 hk2
                  refine ⟨t, ?_, rfl⟩
                  rw [List.length_map] at hlt
                  rw [List.getElem?_eq_getElem hlt] at hfi
                  cases hfi
                  simpa using hb
      | ok sc =>
        obtain ⟨seen, c⟩ := sc
        refine ⟨pairs.length, kids, c, hset _ _ seen c (by rw [List.take_length]; exact hl), .inl ⟨hr.1.symm, ?_⟩⟩
        intro l x hl' hx
        have := valuePairs_entries v
        rw [hp, hl'] at this
        rw [Except.ok.inj this, List.length_map, List.getElem?_eq_none (Nat.le_refl _)] at hx
        cases hx

/-- **C77 (Dict.set_default).** If it raises and the Dict has no default of its own, it has stopped at a field: those before it have their defaults, those after it are
as they were, and this one is what its own `set_default` left behind. -/
theorem C77_default_dict (h : Hdr) (po : Policy) (fs : List Schema) (n : Option PStr) (ks : List Elem) (hd : h.dflt = none ∨ h.dflt = some .none)
    (hc : Conforms (.dict h .full po fs) (.dict n ks)) (e' : Elem) (hr : Raised (setDefaultRun (.dict h .full po fs) (.dict n ks)) e') :
    ∃ ks' j, e' = .dict h.name ks' ∧ j < fs.length ∧ ks'.length = ks.length ∧ ks'.drop (j + 1) = ks.drop (j + 1) ∧
      setDefault (.dict h .full po (fs.take j)) (.dict n (ks.take j)) = .ok (.dict h.name (ks'.take j)) ∧
      ∃ f k k', fs[j]? = some f ∧ ks[j]? = some k ∧ ks'[j]? = some k' ∧ Raised (setDefaultRun f k) k' := by
  obtain ⟨er, hr⟩ := hr
  have h1 : (.dict h.name (defaultKidsRun fs ks).1, (defaultKidsRun fs ks).2) = (e', Except.error er) := by
    unfold setDefaultRun at hr
    rcases hd with hd | hd <;> rw [hd] at hr <;> exact hr
  simp only [Prod.mk.injEq] at h1
  obtain ⟨j, hj, hlen, hdr, ht, hx⟩ := defaultKidsRun_stopped fs ks (defaultKidsRun fs ks).1 er hc.2 (Prod.ext rfl h1.2)
  refine ⟨_, j, h1.1.symm, hj, hlen, hdr, ?_, hx⟩
  unfold setDefault
  rcases hd with hd | hd <;> rw [hd] <;> simp only [Elem.kids, ht]

/-- **C77 (SparseDict.set_default).** If it raises and the SparseDict has no default of its own, it has stopped at a required field whose `set_default` raises: the
ones before it have their defaults, this one and the ones after it are as in a new SparseDict. -/
theorem C77_default_sparse (h : Hdr) (mode : DictMode) (hm : mode ≠ .full) (po : Policy) (fs : List Schema) (e : Elem) (hd : h.dflt = none ∨ h.dflt = some .none)
    (e' : Elem) (hr : Raised (setDefaultRun (.dict h mode po fs) e) e') :
    mode = .sparseRequired ∧ ∃ ks' j f, e' = .dict h.name ks' ∧ fs[j]? = some f ∧ f.hdr.optional = false ∧ (∃ k, Raised (setDefaultRun f (fresh f)) k) ∧
      fresh (.dict h mode po (fs.drop j)) = .dict h.name (ks'.drop j) ∧
      setDefault (.dict h mode po (fs.take j)) e = .ok (.dict h.name (ks'.take j)) := by
  obtain ⟨er, hr⟩ := hr
  cases mode with
  | full => exact absurd rfl hm
  | sparse =>
    unfold setDefaultRun at hr
    rcases hd with hd | hd <;> rw [hd] at hr <;> simp at hr
  | sparseRequired =>
    refine ⟨rfl, ?_⟩
    have h1 : (.dict h.name (defaultRequiredKidsRun fs).1, (defaultRequiredKidsRun fs).2) = (e', Except.error er) := by
      unfold setDefaultRun at hr
      rcases hd with hd | hd <;> rw [hd] at hr <;> exact hr
    simp only [Prod.mk.injEq] at h1
    obtain ⟨j, f, hf, ho, hk, hfr, ht⟩ := defaultRequiredKidsRun_stopped fs (defaultRequiredKidsRun fs).1 er (Prod.ext rfl h1.2)
    refine ⟨_, j, f, h1.1.symm, hf, ho, hk, by rw [fresh, hfr], ?_⟩
    unfold setDefault
    rcases hd with hd | hd <;> rw [hd] <;> simp only [ht]

/-- **C77 (List.set_default).** If it raises, a List with a number for its default has one member, what the member's own `set_default` left behind; any other
List and an Array whose default cannot be iterated are empty; an Array with other defaults has the members before the one whose `set` raised. -/
theorem C77_default_sequence (h : Hdr) (prune : Bool) (max : Nat) (m : Schema) (e e' : Elem) :
    (Raised (setDefaultRun (.list h prune max m) e) e' →
      ∃ d, h.dflt = some d ∧ (e' = .list h.name [] ∨ (∃ n, defaultCount d = some n ∧ 0 < n) ∧ ∃ k, Raised (setDefaultRun m (fresh m)) k ∧ e' = .list h.name [k])) ∧
    (Raised (setDefaultRun (.array h prune m) e) e' →
      ∃ d, h.dflt = some d ∧ ((NotIterable d ∧ e' = .array h.name []) ∨ ∃ vs j x k b ks, itemsOf d = some vs ∧ vs[j]? = some x ∧ Raised (setRun m (fresh m) x) k ∧
        setVal (.array h prune m) (.list (vs.take j)) = .ok (.array h.name ks, b) ∧ e' = .array h.name ks)) := by
  constructor
  · rintro ⟨er, hr⟩
    unfold setDefaultRun at hr
    split at hr
    · cases hr
    · cases hr
    · rename_i d hd hdd
      refine ⟨d, hdd, ?_⟩
      split at hr
      · rename_i n hn
        simp only [Prod.mk.injEq] at hr
        cases n with
        | zero => simp [repeatRun] at hr
        | succ n =>
          right
          refine ⟨⟨_, hn, by omega⟩, ?_⟩
          have : ∀ n, (repeatRun (setDefaultRun m (fresh m)) n).2 = .error er → (setDefaultRun m (fresh m)).2 = .error er := by
            intro n
            induction n with
            | zero => simp [repeatRun]
            | succ n ih =>
              unfold repeatRun
              split
              · rename_i er' he; rw [he]; exact id
              · exact ih
          have he := this _ hr.2
          refine ⟨(setDefaultRun m (fresh m)).1, ⟨er, Prod.ext rfl he⟩, ?_⟩
          rw [← hr.1]
          unfold repeatRun
          rw [he]
      · left
        simp only [forget, Prod.mk.injEq] at hr
        have h2 : (setRun (.list h prune max m) (.list h.name []) d).2 = .error er := by
          cases h3 : (setRun (.list h prune max m) (.list h.name []) d).2 with
          | error x => rw [h3] at hr; simpa [Except.map] using hr.2
          | ok x => rw [h3] at hr; simp [Except.map] at hr
        have h4 : Elem.kids (setRun (.list h prune max m) (.list h.name []) d).1 = [] :=
          C77_set_sequence (.list h prune max m) (.inl ⟨_, _, _, _, rfl⟩) _ d _ ⟨er, Prod.ext rfl h2⟩
        rw [← hr.1]
        have h5 : ∃ ks, (setRun (.list h prune max m) (.list h.name []) d).1 = .list h.name ks := by
          unfold setRun; exact ⟨_, rfl⟩
        obtain ⟨ks, h5⟩ := h5
        have h6 : ks = [] := by rw [← h4, h5]; rfl
        rw [h5, h6]
  · rintro ⟨er, hr⟩
    unfold setDefaultRun at hr
    split at hr
    · cases hr
    · cases hr
    · rename_i d hd hdd
      refine ⟨d, hdd, ?_⟩
      split at hr
      · rename_i er' hp
        left
        simp only [Prod.mk.injEq] at hr
        refine ⟨?_, hr.1.symm⟩
        cases d <;> simp_all [NotIterable, pyIter]
      · rename_i vs hp
        right
        simp only [Prod.mk.injEq] at hr
        obtain ⟨j, x, k, er', b, h1, h2, h3⟩ := extendRun_stopped (setVal m) (fun v => setRun_both m (fresh m) v) vs (extendRun (setRun m (fresh m)) vs).1 er (Prod.ext rfl hr.2)
        refine ⟨vs, j, x, k, b, _, ?_, h1, ⟨er', h2⟩, ?_, hr.1.symm⟩
        · rw [pyIter_items] at hp
          cases hi : itemsOf d with
          | none => rw [hi] at hp; cases hp
          | some l => rw [hi] at hp; cases hp; rfl
        · rw [setVal, seqSetVal, pyIter]
          simp only [h3]

end

/-! ### concrete cases -/

section
attribute [local instance] Runtime.ascii

/-- a scalar class whose adapt() has a bug: it raises ValueError for 'boom' -/
def touchy [Runtime] : ScalarType where
  adapt := fun v => if pyText v = "boom".toList then .error .value else (stringType true).adapt v
  serialize := (stringType true).serialize

/-- a form of a name, two scores and a list of tags -/
def halfForm [Runtime] : Schema :=
  .dict ⟨.none, true, .none⟩ .full .subset
    [.scalar ⟨some ['a'], true, .none⟩ (stringType true), .scalar ⟨some ['b'], true, .none⟩ touchy, .scalar ⟨some ['c'], true, .none⟩ (stringType true),
     .list ⟨some ['l'], true, .none⟩ true 10 (.scalar ⟨some ['m'], true, .none⟩ touchy)]

/-- texts of the leaves -/
def leafTexts (e : Elem) : List PStr := e.kids.flatMap fun k => match k with
  | .scalar _ st => [st.u]
  | k => k.kids.map fun m => m.state.u

/-- set_flat stops at `b`: `a` is new, `b` and `c` keep their texts -/
example : let e := fillRun ['_'] halfForm (fresh halfForm) [.set (.dict [(['a'], .str ['1']), (['b'], .str ['2']), (['c'], .str ['3'])])]
    let e' := fillRun ['_'] halfForm e [.setFlat [(['a'], ['x']), (['b'], "boom".toList), (['c'], ['z'])]]
    leafTexts e = [['1'], ['2'], ['3']] ∧ leafTexts e' = [['x'], ['2'], ['3']] := by decide +kernel

/-- the member `set_flat` stops at stays, as it was when it was made -/
example : leafTexts (fillRun ['_'] halfForm (fresh halfForm) [.setFlat [("l_0_m".toList, ['x']), ("l_1_m".toList, "boom".toList), ("l_2_m".toList, ['z'])]]) =
    [[], [], [], ['x'], []] := by decide +kernel

/-- an Array keeps the members of the pairs before the one that raises -/
example : let a : Schema := .array ⟨some ['t'], true, .none⟩ true (.scalar ⟨some ['m'], true, .none⟩ touchy)
    let r := setFlatRun ['_'] a (fresh a) [(some "t_m".toList, ['x']), (some "t_m".toList, "boom".toList), (some "t_m".toList, ['z'])]
    Raised r r.1 ∧ r.1.kids.map (fun k => k.state.u) = [['x']] := ⟨⟨.value, rfl⟩, by decide +kernel⟩

/-- `set` makes everything blank first; its arguments up to the raising one are there -/
example : let e := fillRun ['_'] halfForm (fresh halfForm) [.set (.dict [(['a'], .str ['1']), (['b'], .str ['2']), (['c'], .str ['3'])])]
    leafTexts (fillRun ['_'] halfForm e [.set (.list [.list [.str ['c'], .str ['z']], .list [.str ['b'], .str "boom".toList], .list [.str ['a'], .str ['x']]])]) =
      [[], [], ['z']] ∧
    leafTexts (fillRun ['_'] halfForm e [.set (.int 3)]) = [['1'], ['2'], ['3']] := by decide +kernel

/-- set_default stops at `b`, whose default raises: `a` has its default, `c` is as it was -/
example : let d : Schema := .dict ⟨.none, true, .none⟩ .full .subset [.scalar ⟨some ['a'], true, some (.str ['1'])⟩ (stringType true), .scalar ⟨some ['b'], true, some (.str "boom".toList)⟩ touchy,
       .scalar ⟨some ['c'], true, some (.str ['3'])⟩ (stringType true)]
    Raised (setDefaultRun d (fresh d)) (setDefaultRun d (fresh d)).1 ∧ leafTexts (setDefaultRun d (fresh d)).1 = [['1'], [], []] := ⟨⟨.value, rfl⟩, by decide +kernel⟩

/-- a SparseDict with such a required field -/
example : let d : Schema := .dict ⟨.none, true, .none⟩ .sparseRequired .subset [.scalar ⟨some ['a'], false, some (.str ['1'])⟩ (stringType true), .scalar ⟨some ['b'], false, some (.str "boom".toList)⟩ touchy,
       .scalar ⟨some ['c'], false, some (.str ['3'])⟩ (stringType true)]
    Raised (setDefaultRun d (fresh d)) (setDefaultRun d (fresh d)).1 ∧ leafTexts (setDefaultRun d (fresh d)).1 = [['1'], [], []] := ⟨⟨.value, rfl⟩, by decide +kernel⟩

/-- an Array and a List whose default raises -/
example : let a : Schema := .array ⟨some ['t'], true, some (.list [.str ['1'], .str "boom".toList, .str ['3']])⟩ true (.scalar ⟨some ['m'], true, .none⟩ touchy)
    let l : Schema := .list ⟨some ['l'], true, some (.int 2)⟩ true 10 (.scalar ⟨some ['m'], true, some (.str "boom".toList)⟩ touchy)
    (∃ e, Raised (setDefaultRun a (fresh a)) e ∧ e.kids.length = 1) ∧ ∃ e, Raised (setDefaultRun l (fresh l)) e ∧ e.kids.length = 1 :=
  ⟨⟨_, ⟨.value, rfl⟩, rfl⟩, _, ⟨.value, rfl⟩, rfl⟩

/-- it raised -/
example : Raised (setRun halfForm (fresh halfForm) (.dict [(['c'], .str ['z']), (['b'], .str "boom".toList)]))
    (setRun halfForm (fresh halfForm) (.dict [(['c'], .str ['z']), (['b'], .str "boom".toList)])).1 := ⟨.value, rfl⟩

/-- a List whose second member raises -/
example : let l : Schema := .list ⟨some ['l'], true, .none⟩ true 10 (.scalar ⟨some ['m'], true, .none⟩ touchy)
    Raised (setRun l (.list (some ['l']) [fresh (.scalar ⟨some ['m'], true, .none⟩ touchy)]) (.list [.str ['x'], .str "boom".toList])) (.list (some ['l']) []) ∧
    (setRun l (fresh l) (.list [.str ['x'], .str ['y']])).1.kids.length = 2 := ⟨⟨.value, rfl⟩, rfl⟩

/-- after the failing calls, a `set` that returns -/
example : (setRun halfForm (fillRun ['_'] halfForm (fresh halfForm) [.setFlat [(['a'], ['x']), (['b'], "boom".toList)], .set (.int 3)])
    (.dict [(['c'], .str ['z'])])).2 = .ok true ∧
    leafTexts (setRun halfForm (fillRun ['_'] halfForm (fresh halfForm) [.setFlat [(['a'], ['x']), (['b'], "boom".toList)], .set (.int 3)])
    (.dict [(['c'], .str ['z'])])).1 = [[], [], ['z']] := ⟨rfl, by decide +kernel⟩

end

end Flatland
