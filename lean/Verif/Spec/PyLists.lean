import Verif.Model.PyList
/-
Specification for C25: Python's lists, after the documentation of the sequence types (Library Reference, "Sequence Types"), for checking the
list operations of the model.
-/
namespace Flatland.Spec

/-- an index below zero counts from the end -/
def fromEnd (len : Nat) (i : Int) : Int := if i < 0 then i + len else i

/-- where a slice begins: at its first index, but not before the list's first item (going forward) or after its last (going backward) -/
def sliceBegin (len : Nat) (step : Int) : Option Int → Int
  | .none => if 0 < step then 0 else len - 1
  | some i => if 0 < step then max 0 (fromEnd len i) else min (len - 1) (fromEnd len i)

/-- The slice `[a:b:step]` of a list of `len` items has the item at `p`: going from its begin in steps one comes to `p`, and `p` is before `b`. -/
def SliceHas (len : Nat) (a b : Option Int) (step : Int) (p : Nat) : Prop :=
  p < len ∧ (∃ k : Nat, (p : Int) = sliceBegin len step a + step * k) ∧ ∀ j, b = some j → if 0 < step then (p : Int) < fromEnd len j else fromEnd len j < p

end Flatland.Spec
