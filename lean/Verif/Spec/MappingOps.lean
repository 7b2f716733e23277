import Verif.Spec.Mappings
import Verif.Model.MappingReads
/-! Specification for the operations of Dict and SparseDict on their children (C81). -/
namespace Flatland.Spec
open Flatland
variable {K V E : Type} [DecidableEq K]

/-- `d` is the content of a mapping after some history of operations -/
def Reachable (c : MapClass K V E) (d : PyDict K E) : Prop := ∃ ops, d = mapHistory c ops

/-- the two mappings have the same children but perhaps at the key -/
def SameBut (k : K) (d d' : PyDict K E) : Prop := ∀ k', k' ≠ k → dictGet d' k' = dictGet d k'

/-- a `set` that returned, whatever it returned -/
def done : Except PyErr Bool → Except PyErr Unit
  | .ok _ => .ok ()
  | .error er => .error er

/-- the pairs for one key, in their order -/
def pairsFor (k : K) (items : List (K × Arg V E)) : List (K × Arg V E) := items.filter fun p => p.1 = k

/-- May the child `e` at the key be taken out?  Without minimum_fields always, with 'required' iff the element is optional. -/
def removable (c : MapClass K V E) (k : K) (e : E) : Prop :=
  c.mode = .sparse ∨ ∃ f ∈ c.fields, f.name = k ∧ f.optionalOf e = true

end Flatland.Spec
