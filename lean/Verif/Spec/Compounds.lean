import Verif.Model.Compounds
import Verif.Spec.Scalars
import Verif.Spec.ScalarTypes
/-! Specification of compound dates and joined strings. -/
namespace Flatland.Spec
open Flatland

/-- numbers that are the year, month and day of a real date -/
def DateNumbers (y m d : Int) (Y M D : Nat) : Prop := y = Y ∧ m = M ∧ d = D ∧ RealDate Y M D

/-- what counts as a number when a date is put together: the ints, True as 1 and False as 0 -/
def CountsAs (v : PyVal) (i : Int) : Prop := v = .int i ∨ (v = .bool true ∧ i = 1) ∨ (v = .bool false ∧ i = 0)

/-- the children were set in turn, with these results each, until one raised `er`: that one is as its own `set` left it, and those after it
are as they were -/
def SetUpTo (results : List (ScalarState × Except PyErr Bool)) (old new : List ScalarState) (er : PyErr) : Prop :=
  ∃ k r, results[k]? = some r ∧ r.2 = .error er ∧ (∀ i x, i < k → results[i]? = some x → ∃ ok, x.2 = .ok ok) ∧
    new = (results.take (k + 1)).map Prod.fst ++ old.drop (k + 1)

/-- the separator does not begin within the text, even when the text is followed by the separator -/
def SepFree (sep p : PStr) : Prop := ∀ a b, p = a ++ b → b ≠ [] → ¬ sep <+: b ++ sep

/-- what may be done to a DateYYYYMMDD: setting a child, or the whole -/
inductive YmdOp
  | child (i : Nat) (x : PyVal)
  | whole (x : PyVal)

/-- the children after a sequence of operations -/
def ymdRun [Runtime] (doStrip : Bool) (sts : List ScalarState) (ops : List YmdOp) : List ScalarState :=
  ops.foldl (fun sts op => match op with
    | .child i x => match ymdTypes[i]?, sts[i]? with
      | some t, some st => sts.set i (scalarSet t st x).1
      | _, _ => sts
    | .whole x => (dateSet doStrip ymdTypes sts x).1) sts

end Flatland.Spec
