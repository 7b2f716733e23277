import Verif.Proofs.Order
/-!
Property theorems C10 for submissions that are not the flattened form of anything.
-/
namespace Flatland
open Spec

section
variable [Runtime]

/-- **C10 (any submission).** Whatever is submitted, to whatever element: two submissions in which every key has the same values in the same
relative order have the same outcome, be it the element built or the exception raised, provided the keys are tidy (an index is written in one way
only) and each Array of the schema has a single key for its members. -/
theorem C10_any_submission {sep : PStr} (hsep : sep ≠ []) (hd : ∀ c ∈ sep, digit c = none) (hnl : sep ≠ ['\n']) (s : Schema) (hs : OneKey s)
    (e : Elem) (ps qs : List (PStr × PStr)) (htidy : ∀ kv ∈ ps, TidyKey sep kv.1) (hps : ∀ k, valuesFor k ps = valuesFor k qs) :
    setFlat sep s e (texts ps) = setFlat sep s e (texts qs) := by
  refine order_same hsep hd hnl s hs e _ _ (agree_of_valuesFor hps) ?_
  intro x hx k hk
  obtain ⟨kv, hkv, rfl⟩ := List.mem_map.1 hx
  cases hk
  exact htidy kv hkv

/-- Two ways of writing one index are two keys for one member, and then the order decides: of `l_0` and `l_00` the first one counts. -/
theorem C10_untidy_order_matters (v w : PStr) (hv : v ≠ []) (hw : w ≠ []) (hne : v ≠ w) :
    let s : Schema := .list ⟨some "l".toList, false, some .none⟩ true 128 (.scalar ⟨none, false, some .none⟩ (stringType false))
    setFlat "_".toList s (fresh s) (texts [("l_0".toList, v), ("l_00".toList, w)]) ≠
      setFlat "_".toList s (fresh s) (texts [("l_00".toList, w), ("l_0".toList, v)]) := by
  have e0 : digit '0' = some 0 := Runtime.digit_ascii 0 (by decide)
  have h0 : idxMatch "_".toList (some "l".toList) "l_0".toList = some (0, none) := by
    simp [idxMatch, idxPrefix, truthyName, startsWith, List.isPrefixOf, isDigit', e0, idxTail, digitsAcc, orNone]
  have h00 : idxMatch "_".toList (some "l".toList) "l_00".toList = some (0, none) := by
    simp [idxMatch, idxPrefix, truthyName, startsWith, List.isPrefixOf, isDigit', e0, idxTail, digitsAcc, orNone]
  intro s
  have hv' : (v == []) = false := by simpa using hv
  have hw' : (w == []) = false := by simpa using hw
  simp only [s, texts, List.map_cons, List.map_nil, setFlat, listMatches, hv', hw', Bool.false_and, Bool.false_eq_true, if_false, h0, h00, bind, Except.bind]
  simp [sortedIdx, insertIdx, subPairs, scalarSetFlat, scalarSet, stringType, pyText, List.mapM_cons, bind, Except.bind, pure, Except.pure, hne]

end

section
attribute [local instance] Runtime.ascii

/-- Non-vacuity: a form with a scalar, a List of Dicts and an Array; its keys are tidy and two orders of a submission that is no flattened form
(it has gaps, an unknown key and a repeated one) give the same. -/
example :
    let s : Schema := .dict ⟨none, false, some .none⟩ .full .subset
      [.scalar ⟨some "a".toList, false, some .none⟩ (stringType true),
       .list ⟨some "l".toList, false, some .none⟩ false 10
         (.dict ⟨none, false, some .none⟩ .full .subset [.scalar ⟨some "x".toList, false, some .none⟩ (integerType true 0)]),
       .array ⟨some "t".toList, false, some .none⟩ true (.scalar ⟨none, false, some .none⟩ (stringType true))]
    setFlat "_".toList s (fresh s) (texts [("t".toList, "p".toList), ("l_2_x".toList, "5".toList), ("nope".toList, "".toList), ("t".toList, "q".toList), ("a".toList, "b".toList)]) =
      setFlat "_".toList s (fresh s) (texts [("a".toList, "b".toList), ("t".toList, "p".toList), ("nope".toList, "".toList), ("t".toList, "q".toList), ("l_2_x".toList, "5".toList)]) := by
  intro s
  refine C10_any_submission (by decide) (by decide) (by decide) s ?_ _ _ _ ?_ ?_
  · have hstr : ∀ b, TextSafe (stringType b) := fun b st x => ⟨true, by cases b <;> simp [scalarSet, stringType, pyText]⟩
    have hint : TextSafe (integerType true 0) := by
      intro st x
      unfold scalarSet
      simp only [integerType, intOf]
      cases pyInt (strip x) with
      | none => exact ⟨false, by simp [numberCatches]⟩
      | some i => exact ⟨true, by simp⟩
    simp only [s, OneKey, OneKeyAll, Schema.name, Schema.hdr, Nameless]
    exact ⟨by simp, hstr _, by simp, ⟨by simp, hint, trivial⟩, by simp, ⟨by simp, hstr _⟩, trivial⟩
  · have ascii : ∀ (c : Char) (d : Nat), digit c = some d → c = digitChar d := by
      intro c d h
      simp only [digit, Runtime.digit] at h
      split at h
      · rename_i hc
        cases h
        unfold digitChar
        rw [Nat.add_sub_cancel' hc.1]
        exact (Char.ofNat_toNat c).symm
      · cases h
    have tidy : ∀ k ∈ ["t".toList, "l_2_x".toList, "nope".toList, "a".toList], TidyKey "_".toList k := by
      intro k hk
      have hz : '0' ∉ k ∧ (∀ c ∈ k, ∀ d, digit c = some d → c = digitChar d) ∧ ¬ "_".toList <:+ k ∧ k.getLast? ≠ some '\n' := by
        simp only [List.mem_cons, List.not_mem_nil, or_false] at hk
        rcases hk with rfl | rfl | rfl | rfl
        all_goals exact ⟨by decide, fun c _ d h => ascii c d h, by decide, by decide⟩
      exact ⟨hz.2.1, fun a b c he => absurd (by rw [he]; simp) hz.1, hz.2.2.1, hz.2.2.2⟩
    intro kv hkv
    simp only [List.mem_cons, List.not_mem_nil, or_false] at hkv
    rcases hkv with rfl | rfl | rfl | rfl | rfl <;> exact tidy _ (by simp)
  · intro k
    by_cases hk : k ∈ ["t".toList, "l_2_x".toList, "nope".toList, "a".toList]
    · simp only [List.mem_cons, List.not_mem_nil, or_false] at hk
      rcases hk with rfl | rfl | rfl | rfl <;> decide
    · simp only [List.mem_cons, List.not_mem_nil, or_false, not_or] at hk
      have hb : ∀ m : PStr, k ≠ m → (m == k) = false := fun m h => by simpa using Ne.symm h
      simp only [valuesFor, List.filter_cons, hb _ hk.1, hb _ hk.2.1, hb _ hk.2.2.1, hb _ hk.2.2.2, Bool.false_eq_true, if_false, List.filter_nil]

end
end Flatland
