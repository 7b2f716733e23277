import Verif.Spec.Scalars
import Verif.Spec.ScalarTypes
/-!
How Python prints the values that are neither text nor None, for the statement about rejected native values in C02. Nothing here
is assumed globally: `Printing` is a hypothesis of the theorems that need it, and `printing` shows that it can be met.
-/
namespace Flatland.Spec
open Flatland

/-- How Python prints dates, times, lists and dicts, and that the punctuation of those forms is neither a digit nor white space. -/
structure Printing [Runtime] : Prop where
  marks : ∀ c ∈ ['T', 'F', '[', '{', '.', ':'], digit c = none ∧ space c = false
  date : ∀ y m d, RealDate y m d → DateText (Runtime.textObj (.date y m d)) y m d
  time : ∀ h mi s us, RealTime h mi s → ∃ core rest, Runtime.textObj (.time h mi s us) = core ++ rest ∧ TimeText core h mi s ∧
    (us = 0 → rest = []) ∧ (us ≠ 0 → '.' ∈ rest)
  datetime : ∀ y m d h mi s us, RealDate y m d → RealTime h mi s →
    ∃ dt tt rest, Runtime.textObj (.datetime y m d h mi s us) = (dt ++ ' ' :: tt) ++ rest ∧ DateText dt y m d ∧ TimeText tt h mi s ∧
      (us = 0 → rest = []) ∧ (us ≠ 0 → '.' ∈ rest)
  list : ∀ xs, ∃ r, Runtime.textObj (.list xs) = '[' :: r
  dict : ∀ xs, ∃ r, Runtime.textObj (.dict xs) = '{' :: r

/-- If the element is a (constrained) Boolean and the printed form of `x` is one of its literals, then it is a literal for the truth
value of `x` itself: with the default literals this is so for all numbers, truth values, dates and times, lists and dicts. -/
def LiteralsHonest [Runtime] (b : Builtin) (x : PyVal) : Prop :=
  ∀ c, b.base = .boolean c →
    (¬ FalseValue x → ¬ (pyText x = c.false_ ∨ pyText x ∈ c.falseSyn)) ∧ (FalseValue x → ¬ (pyText x = c.true_ ∨ pyText x ∈ c.trueSyn))

/-- a runtime that prints dates, times, lists and dicts the way Python does (the contents of lists and dicts left out) -/
@[reducible] def printing : Runtime :=
  { Runtime.ascii with
    textObj := fun
      | .date y m d => fmtDate y m d
      | .time h mi s us => fmtTime h mi s ++ (if us = 0 then [] else '.' :: padNat 6 us)
      | .datetime y m d h mi s us => (fmtDate y m d ++ ' ' :: fmtTime h mi s) ++ (if us = 0 then [] else '.' :: padNat 6 us)
      | .list _ => "[]".toList
      | .dict _ => "{}".toList
      | _ => "?".toList }

end Flatland.Spec
