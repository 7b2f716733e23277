import Verif.Proofs.ValueSet
import Verif.Spec.TreeExample
/-
Properties C26 and C30 for whole element trees: what `set` of a Sequence or a Dict leaves, returns and raises, whatever the members
and fields are.
-/
namespace Flatland
open Spec

section
variable [Runtime]

/-! ### C26 -/

/-- **C26.** `set` of a List or an Array in a tree.  Something that cannot be iterated leaves it empty and returns False.  If every item
can be set on a new member, those are the members, in order, and the result is True iff it was for each.  If an item raises, a
TypeError empties it and gives False, and any other exception escapes.  (The last two cases are the only ones for an iterable.) -/
theorem C26_tree_set (h : Hdr) (prune : Bool) (max : Nat) (m : Schema) (v : PyVal) :
    (itemsOf v = none →
      setVal (.list h prune max m) v = .ok (.list h.name [], false) ∧ setVal (.array h prune m) v = .ok (.array h.name [], false)) ∧
    (∀ (vs : List PyVal) (r : List (Elem × Bool)), itemsOf v = some vs → vs.map (setVal m) = r.map Except.ok →
      setVal (.list h prune max m) v = .ok (.list h.name (r.map Prod.fst), r.all Prod.snd) ∧
      setVal (.array h prune m) v = .ok (.array h.name (r.map Prod.fst), r.all Prod.snd)) ∧
    (∀ pre w post er, itemsOf v = some (pre ++ w :: post) → (∀ x ∈ pre, ∃ y, setVal m x = .ok y) → setVal m w = .error er →
      (er = .type →
        setVal (.list h prune max m) v = .ok (.list h.name [], false) ∧ setVal (.array h prune m) v = .ok (.array h.name [], false)) ∧
      (er ≠ .type → setVal (.list h prune max m) v = .error er ∧ setVal (.array h prune m) v = .error er)) := by
  refine ⟨fun hv => ?_, fun vs r hv hr => ?_, fun pre w post er hv hp hw => ?_⟩
  · simp [setVal, seqSetVal, pyIter_items, hv]
  · simp [setVal, seqSetVal, pyIter_items, hv, memberSetLoop_ok _ _ _ hr]
  · have := memberSetLoop_error (setVal m) pre w post er hp hw
    constructor
    · rintro rfl
      simp [setVal, seqSetVal, pyIter_items, hv, this]
    · intro he
      cases er <;> first | exact absurd rfl he | simp [setVal, seqSetVal, pyIter_items, hv, this]

/-- **C26.** One of the three cases always applies. -/
theorem C26_tree_cases (m : Schema) (v : PyVal) :
    itemsOf v = none ∨ (∃ (vs : List PyVal) (r : List (Elem × Bool)), itemsOf v = some vs ∧ vs.map (setVal m) = r.map Except.ok) ∨
    ∃ pre w post er, itemsOf v = some (pre ++ w :: post) ∧ (∀ x ∈ pre, ∃ y, setVal m x = .ok y) ∧ setVal m w = .error er := by
  cases hv : itemsOf v with
  | none => exact .inl rfl
  | some vs =>
    refine .inr ?_
    have : (∃ r : List (Elem × Bool), vs.map (setVal m) = r.map Except.ok) ∨
        ∃ pre w post er, vs = pre ++ w :: post ∧ (∀ x ∈ pre, ∃ y, setVal m x = .ok y) ∧ setVal m w = .error er := by
      clear hv
      induction vs with
      | nil => exact .inl ⟨[], rfl⟩
      | cons x vs ih =>
        cases hx : setVal m x with
        | error er => exact .inr ⟨[], x, vs, er, rfl, by simp, hx⟩
        | ok y =>
          rcases ih with ⟨r, hr⟩ | ⟨pre, w, post, er, rfl, h1, h2⟩
          · exact .inl ⟨y :: r, by simp [hx, hr]⟩
          · exact .inr ⟨x :: pre, w, post, er, rfl, fun z hz => by
              rcases List.mem_cons.1 hz with rfl | hz
              · exact ⟨y, hx⟩
              · exact h1 z hz, h2⟩
    rcases this with ⟨r, hr⟩ | ⟨pre, w, post, er, rfl, h1, h2⟩
    · exact .inl ⟨vs, r, rfl, hr⟩
    · exact .inr ⟨pre, w, post, er, rfl, h1, h2⟩

/-! ### C30 -/

/-- **C30.** `set` of a Dict or SparseDict in a tree returns exactly when the value has entries, no entry stops it (each is a pair, the
key is hashable, known or to be ignored, and the field takes the value without an exception) and, under the strict policy, every field
is supplied.  Then each field holds the last value supplied for it, or is as in a new Dict, and the result is True iff every value
supplied for a field was taken with True. -/
theorem C30_tree_set (h : Hdr) (mode : DictMode) (pol : Policy) (fs : List Schema) (hn : (fs.map Schema.name).Nodup) (v : PyVal) (e : Elem)
    (b : Bool) :
    setVal (.dict h mode pol fs) v = .ok (e, b) ↔
      ∃ l kids, entriesOf v = some l ∧ (∀ x ∈ l, ∀ er, ¬ StopsAt pol fs x er) ∧ (pol = .strict → ∀ f ∈ fs, ¬ Unsupplied f l) ∧
        e = .dict h.name kids ∧ kids.length = fs.length ∧
        (∀ (i : Nat) (f : Schema) (kid : Elem), fs[i]? = some f → kids[i]? = some kid → LeftAt mode f l kid) ∧
        (b = true ↔ ∀ x ∈ l, ∀ f ∈ fs, ∀ w e' b', Supplies f x w → setVal f w = .ok (e', b') → b' = true) := by
  rw [setVal, dictSet, valuePairs_entries]
  cases hv : entriesOf v with
  | none => simp
  | some l =>
    simp only [Option.some.injEq, exists_and_left, exists_eq_left']
    rcases first_stop (fun x => ∃ er, StopsAt pol fs x er) l with hgo | ⟨pre, x, post, rfl, h1, er, h2⟩
    · have hgo' : ∀ y ∈ l, ∀ er', ¬ StopsAt pol fs y er' := fun y hy er' h => hgo y hy ⟨er', h⟩
      obtain ⟨kids', seen', c', g1, g2, g3, g4, g5⟩ := dictSetLoop_runs pol fs hn l hgo' (freshFields mode fs) [] true (by simp [freshFields_map])
      rw [g1]
      simp only
      have hleft : ∀ (i : Nat) (f : Schema) (kid : Elem), fs[i]? = some f → kids'[i]? = some kid → LeftAt mode f l kid := by
        intro i f kid hi hk
        obtain ⟨kid', k1, k2⟩ := g3 i f (unsuppliedField mode f) hi (by simp [freshFields_map, hi])
        rw [hk] at k1
        cases k1
        exact k2
      have huniq : ∀ (i : Nat) (f : Schema) (k₁ k₂ : Elem), fs[i]? = some f → LeftAt mode f l k₁ → LeftAt mode f l k₂ → k₁ = k₂ := by
        rintro i f k₁ k₂ _ (⟨u₁, rfl⟩ | ⟨pre₁, x₁, post₁, v₁, b₁, e₁, s₁, p₁, t₁⟩) (⟨u₂, rfl⟩ | ⟨pre₂, x₂, post₂, v₂, b₂, e₂, s₂, p₂, t₂⟩)
        · rfl
        · exact (u₁ x₂ (by simp [e₂]) _ s₂).elim
        · exact (u₂ x₁ (by simp [e₁]) _ s₁).elim
        · have : x₁ = x₂ := by
            rw [e₁] at e₂
            rcases List.append_eq_append_iff.1 e₂ with ⟨as, ha, hb⟩ | ⟨as, ha, hb⟩
            · cases as with
              | nil => simp at hb; exact hb.1
              | cons a as =>
                simp at hb
                exact (p₁ x₂ (by simp [hb.2]) _ s₂).elim
            · cases as with
              | nil => simp at hb; exact hb.1.symm
              | cons a as =>
                simp at hb
                exact (p₂ x₁ (by simp [hb.2]) _ s₁).elim
          subst this
          obtain ⟨n₁, _, rfl⟩ := s₁
          obtain ⟨n₂, _, hh⟩ := s₂
          cases hh
          rw [t₁] at t₂
          cases t₂
          rfl
      have hall : (List.range (fs.map Schema.name).length).all (fun i => seen'.contains i) = true ↔ ∀ f ∈ fs, ¬ Unsupplied f l := by
        simp only [List.all_eq_true, List.mem_range, List.length_map, List.contains_iff_mem]
        constructor
        · intro h f hf hu
          obtain ⟨i, hi⟩ := List.getElem?_of_mem hf
          have := (g4 i).1 (h i (List.getElem?_eq_some_iff.1 hi).1)
          rcases this with h | ⟨g, x, w, a, c, d⟩
          · simp at h
          · rw [hi] at a; cases a; exact hu x c w d
        · intro h i hi
          refine (g4 i).2 (.inr ?_)
          have hf : fs[i]? = some fs[i] := List.getElem?_eq_getElem hi
          have := h fs[i] (List.getElem_mem hi)
          simp only [Unsupplied, Classical.not_forall, Classical.not_not] at this
          obtain ⟨x, hx, w, hw⟩ := this
          exact ⟨fs[i], x, w, hf, hx, hw⟩
      have hT : c' = true ↔ ∀ x ∈ l, ∀ f ∈ fs, ∀ w e' b', Supplies f x w → setVal f w = .ok (e', b') → b' = true := by
        rw [g5]; simp
      constructor
      · intro hr
        split at hr
        · cases hr
        · rename_i hstrict
          simp only [Except.ok.injEq, Prod.mk.injEq] at hr
          obtain ⟨rfl, rfl⟩ := hr
          refine ⟨hgo', fun hp => ?_, kids', rfl, g2, hleft, hT⟩
          apply hall.1
          rw [Classical.not_and_iff_not_or_not] at hstrict
          rcases hstrict with hs | hs
          · exact absurd hp hs
          · exact Classical.not_not.1 hs
      · rintro ⟨_, hs, kids, rfl, hlen, hleft', hb⟩
        have hk : kids = kids' := by
          apply List.ext_getElem?
          intro i
          by_cases hi : i < fs.length
          · have e1 : kids[i]? = some (kids[i]'(by omega)) := List.getElem?_eq_getElem _
            have e2 : kids'[i]? = some (kids'[i]'(by omega)) := List.getElem?_eq_getElem _
            have e3 : fs[i]? = some fs[i] := List.getElem?_eq_getElem hi
            rw [e1, e2, huniq i _ _ _ e3 (hleft' i _ _ e3 e1) (hleft i _ _ e3 e2)]
          · rw [List.getElem?_eq_none (by omega), List.getElem?_eq_none (by omega)]
        subst hk
        have hc : b = c' := by rw [Bool.eq_iff_iff, hb, hT]
        subst hc
        rw [if_neg]
        rintro ⟨hp, hne⟩
        exact hne (hall.2 (hs hp))
    · have := dictSetLoop_stops pol fs hn pre x post er (fun y hy er' h => h1 y hy ⟨er', h⟩) h2 (freshFields mode fs) [] true
      rw [this]
      simp only [reduceCtorEq, false_iff, not_and, not_exists]
      intro hs
      exact (hs x (by simp) er h2).elim

/-- **C30.** And it raises exactly so: TypeError if the value cannot be iterated; otherwise what the first entry that stops it raises
(KeyError for a key that belongs to no field unless the policy is duck); otherwise TypeError under the strict policy if a field was not
supplied. -/
theorem C30_tree_raises (h : Hdr) (mode : DictMode) (pol : Policy) (fs : List Schema) (hn : (fs.map Schema.name).Nodup) (v : PyVal) (er : PyErr) :
    setVal (.dict h mode pol fs) v = .error er ↔
      (entriesOf v = none ∧ er = .type) ∨
      (∃ pre x post, entriesOf v = some (pre ++ x :: post) ∧ (∀ y ∈ pre, ∀ er', ¬ StopsAt pol fs y er') ∧ StopsAt pol fs x er) ∨
      (∃ l f, entriesOf v = some l ∧ (∀ y ∈ l, ∀ er', ¬ StopsAt pol fs y er') ∧ pol = .strict ∧ f ∈ fs ∧ Unsupplied f l ∧ er = .type) := by
  have hv : ∀ l, entriesOf v = some l → setVal (.dict h mode pol fs) v =
      match dictSetLoop pol (fs.map Schema.name) (fieldSetters fs) (freshFields mode fs) [] true (l.map Entry.asPair) with
      | .error er => .error er
      | .ok (kids, seen, converted) =>
        if pol = .strict ∧ ¬ (List.range (fs.map Schema.name).length).all (fun i => seen.contains i) then .error .type
        else .ok (.dict h.name kids, converted) := by
    intro l hl
    rw [setVal, dictSet, valuePairs_entries, hl]
    rfl
  constructor
  · intro hr
    cases he : entriesOf v with
    | none =>
      rw [setVal, dictSet, valuePairs_entries, he] at hr
      cases hr
      exact .inl ⟨rfl, rfl⟩
    | some l =>
      refine .inr ?_
      rcases first_stop (fun x => ∃ er, StopsAt pol fs x er) l with hgo | ⟨pre, x, post, rfl, h1, er', h2⟩
      · refine .inr ?_
        have hgo' : ∀ y ∈ l, ∀ er', ¬ StopsAt pol fs y er' := fun y hy er' h => hgo y hy ⟨er', h⟩
        obtain ⟨kids', seen', c', g1, g2, g3, g4, g5⟩ := dictSetLoop_runs pol fs hn l hgo' (freshFields mode fs) [] true (by simp [freshFields_map])
        rw [hv l he, g1] at hr
        simp only at hr
        split at hr
        · rename_i hc
          cases hr
          have := hc.2
          rw [List.all_eq_true] at this
          simp only [List.mem_range, List.length_map, List.contains_iff_mem, Classical.not_forall] at this
          obtain ⟨i, hi, hs⟩ := this
          refine ⟨l, fs[i], rfl, hgo', hc.1, List.getElem_mem hi, ?_, rfl⟩
          intro x hx w hw
          exact hs ((g4 i).2 (.inr ⟨_, x, w, List.getElem?_eq_getElem hi, hx, hw⟩))
        · cases hr
      · refine .inl ⟨pre, x, post, rfl, fun y hy er' h => h1 y hy ⟨er', h⟩, ?_⟩
        rw [hv _ he, dictSetLoop_stops pol fs hn pre x post er' (fun y hy er' h => h1 y hy ⟨er', h⟩) h2] at hr
        cases hr
        exact h2
  · rintro (⟨he, rfl⟩ | ⟨pre, x, post, he, h1, h2⟩ | ⟨l, f, he, h1, rfl, hf, hu, rfl⟩)
    · rw [setVal, dictSet, valuePairs_entries, he]
    · rw [hv _ he, dictSetLoop_stops pol fs hn pre x post er h1 h2]
    · obtain ⟨kids', seen', c', g1, g2, g3, g4, g5⟩ := dictSetLoop_runs .strict fs hn l h1 (freshFields mode fs) [] true (by simp [freshFields_map])
      rw [hv l he, g1]
      simp only
      rw [if_pos]
      simp only [true_and]
      intro hall
      rw [List.all_eq_true] at hall
      obtain ⟨i, hi⟩ := List.getElem?_of_mem hf
      have := hall i (by simpa using (List.getElem?_eq_some_iff.1 hi).1)
      rw [List.contains_iff_mem, g4] at this
      rcases this with h | ⟨g, x, w, a, c, d⟩
      · simp at h
      · rw [hi] at a; cases a; exact hu x c w d

end

/-! ### examples -/

section examples
attribute [local instance] Runtime.ascii
open TreeExample

/-- a strict Dict with an Integer `n` and a List `l` of Integers -/
private def strictSchema : Schema :=
  .dict ⟨some "d".toList, false, some .none⟩ .full .strict
    [.scalar ⟨some "n".toList, false, some .none⟩ (integerType true 0),
     .list ⟨some "l".toList, false, some .none⟩ true 1024 (.scalar ⟨none, false, some .none⟩ (integerType true 0))]

-- the items of the list are set one by one; one is refused and the whole is False
example : setVal strictSchema (.dict [("n".toList, .none), ("l".toList, .list [.none, .str "x".toList])]) =
    .ok (.dict (some "d".toList) [.scalar (some "n".toList) ⟨.none, [], some .none⟩,
      .list (some "l".toList) [.scalar none ⟨.none, [], some .none⟩, .scalar none ⟨.none, "x".toList, some (.str "x".toList)⟩]], false) := by rfl
-- a field is missing
example : setVal strictSchema (.dict [("n".toList, .int 4)]) = .error .type := by rfl
-- a key of no field
example : setVal strictSchema (.dict [("q".toList, .int 4)]) = .error .key := by rfl
-- an item that is no pair
example : setVal strictSchema (.list [.list [.int 1]]) = .error .value := by rfl
example : [Schema.scalar ⟨some "n".toList, false, some .none⟩ (integerType true 0),
     .list ⟨some "l".toList, false, some .none⟩ true 1024 (.scalar ⟨none, false, some .none⟩ (integerType true 0))].map Schema.name |>.Nodup := by
  simp [Schema.name, Schema.hdr]
end examples

end Flatland
