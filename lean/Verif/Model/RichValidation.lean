import Verif.Model.RichNodes
import Verif.Model.FormValidation
/-!
Validation of a whole tree that also has Compounds and JoinedStrings in it (flatland/schema/base.py:768-845, 890-929, flatland/schema/containers.py:122-136).

A Compound and a JoinedString are Containers first (flatland/schema/compound.py:73, 247), so they have `descent_validators` on the way down and `validators`
on the way up.  A Compound is empty when all its fields are (flatland/schema/compound.py:190-193), a JoinedString when it has no members
(flatland/schema/containers.py:278-280).

Simplifications: as in Model/FormValidation.lean and Model/RichNodes.lean.  The `is_empty` of a Compound without any fields, which raises TypeError (`reduce` of
nothing), is taken to be True; DateYYYYMMDD always has three.
-/
namespace Flatland
open Flatland.Spec (Pos)

/-- a validator in place, as in Model/FormValidation.lean; it may look at the whole tree [validation/base.py:13-112] -/
structure RichRule where
  decide : NElem → Pos → Except PyErr (Option PStr)
  noter : NElem → Pos → Noter

/-- the attributes of an element's class that validation reads, as in Model/FormValidation.lean [schema/base.py:72-82, schema/containers.py:48-52,
schema/scalars.py:51, 213-215, schema/containers.py:1221-1224] -/
structure RichField where
  optional : Bool := false
  validators : List RichRule := []
  descent : List RichRule := []
  textual : Bool := false
  sparse : Bool := false

mutual
/-- `is_empty` of the element at a position: a Compound's fields have to be empty, otherwise as in Model/FormValidation.lean
[schema/compound.py:190-193, schema/base.py:764-766, schema/scalars.py:213-215, schema/containers.py:279-280, 895-897, 1221-1224] -/
def nIsEmpty [Runtime] (rules : Pos → RichField) (p : Pos) : NElem → Bool
  | .compound _ _ _ ks => allEmpty rules p 0 ks
  | .scalar _ st => if (rules p).textual then stringIsEmpty st else isNone st.value && st.u == []
  | .dict _ ks => (rules p).sparse && !ks.any NElem.present
  | .list _ ks | .array _ ks | .joined _ _ ks => ks.isEmpty
  | .absent => true
/-- `reduce(operator.and_, (c.is_empty for c in self.children))` [schema/compound.py:190-193] -/
def allEmpty [Runtime] (rules : Pos → RichField) (p : Pos) (i : Nat) : List NElem → Bool
  | [] => true
  | k :: ks => nIsEmpty rules (p ++ [i]) k && allEmpty rules p (i + 1) ks
end

/-- `fn(element, state)` [schema/base.py:919, validation/base.py:37-50, 108-112] -/
def runRichRule [Runtime] (e : NElem) (p : Pos) (r : RichRule) : Validator Pos (Pos → List PStr) := fun st =>
  let out := runCheck (r.noter e p) (st.data p) (r.decide e p)
  ({ st with data := fun q => if q = p then out.1 else st.data q }, out.2.map fun b => if b then .truthy else .falseInt)

/-- is it a Container? [schema/containers.py:34, schema/scalars.py:34, schema/compound.py:73, 247] -/
def isContainerN : NElem → Bool
  | .scalar .. => false
  | _ => true

/-- the class of the element at a position, for `_validate` [schema/scalars.py:51, schema/containers.py:48-50, schema/compound.py:73, 247] -/
def richClass [Runtime] (e : NElem) (rules : Pos → RichField) (p : Pos) : VClass Pos (Pos → List PStr) :=
  let container := isContainerN ((nElemAt e p).getD .absent)
  { container := container
    downList := some (((if container then (rules p).descent else (rules p).validators)).map (runRichRule e p))
    upList := if container then some ((rules p).validators.map (runRichRule e p)) else .none
    optional := (rules p).optional
    isEmpty := fun _ => nIsEmpty rules p ((nElemAt e p).getD .absent) }

/-- the tree as `validate()` sees it [schema/base.py:799-845] -/
def richEnv [Runtime] (e : NElem) (rules : Pos → RichField) : VEnv Pos (Pos → List PStr) :=
  VEnv.ofClasses (fun _ p => childPositions (shape e) p) (richClass e rules)

/-- `root.validate()` [schema/base.py:768-833] -/
def validateRich [Runtime] (e : NElem) (rules : Pos → RichField) (fuel : Nat) (st : VState Pos (Pos → List PStr)) :
    Option (VRun Pos (Pos → List PStr)) := validateTree (richEnv e rules) fuel [] st

end Flatland
