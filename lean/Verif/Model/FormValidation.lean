import Verif.Model.Validate
import Verif.Model.Validators
import Verif.Model.Values
import Verif.Model.Nodes
/-!
Validation of a whole element tree with validators that look at the tree and report messages: the pieces of Model/Validate.lean
(the traversal), Model/Validators.lean (the validators) and Model/Messages.lean put together on the trees of Model/Tree.lean.

Elements are identified by their positions.  Simplification: validators do not change the tree; the `errors` lists are the only data.
-/
namespace Flatland
open Flatland.Spec (elemAt Pos)

/-- A validator in place: what it decides about the element at a position (as in Model/Validators.lean: `.ok none` – True; `.ok (some
key)` – `note_error(…, key)`), and what `note_error` uses. [validation/base.py:13-112] -/
structure FormRule where
  decide : Elem → Pos → Except PyErr (Option PStr)
  noter : Elem → Pos → Noter

/-- the attributes of an element's class that validation reads; `textual`: a String, whose `is_empty` is its own; `sparse`: a SparseDict,
likewise [schema/base.py:72-82, schema/containers.py:48-52, schema/scalars.py:51, 213-215, schema/containers.py:1221-1224] -/
structure FieldRules where
  optional : Bool := false
  validators : List FormRule := []
  descent : List FormRule := []
  textual : Bool := false
  sparse : Bool := false

/-- `is_empty`: Element (base.py:764-766), String (scalars.py:213-215), Sequence (containers.py:279-280), Mapping (containers.py:895-897),
SparseDict (containers.py:1221-1224) [schema/base.py:764-766] -/
def elemIsEmpty [Runtime] (c : FieldRules) : Elem → Bool
  | .scalar _ st => if c.textual then stringIsEmpty st else isNone st.value && st.u == []
  | .dict _ ks => c.sparse && !ks.any Elem.present
  | .list _ ks | .array _ ks => ks.isEmpty
  | .absent => true

/-- `fn(element, state)`: the validator's verdict, with the message added to the element's errors [schema/base.py:919, validation/base.py:37-50, 108-112] -/
def runRule [Runtime] (e : Elem) (p : Pos) (r : FormRule) : Validator Pos (Pos → List PStr) := fun st =>
  let out := runCheck (r.noter e p) (st.data p) (r.decide e p)
  ({ st with data := fun q => if q = p then out.1 else st.data q }, out.2.map fun b => if b then .truthy else .falseInt)

/-- is it a Container? [schema/containers.py:34, schema/scalars.py:34] -/
def isContainerElem : Elem → Bool
  | .scalar .. => false
  | _ => true

/-- the class of the element at a position, for `_validate`: Scalars have `validators` on the way down and nothing on the way up
(scalars.py:51, base.py:128); Containers `descent_validators` and `validators` (containers.py:48-50) [schema/scalars.py:51, schema/containers.py:48-50] -/
def formClass [Runtime] (e : Elem) (rules : Pos → FieldRules) (p : Pos) : VClass Pos (Pos → List PStr) :=
  let container := isContainerElem ((elemAt e p).getD .absent)
  { container := container
    downList := some (((if container then (rules p).descent else (rules p).validators)).map (runRule e p))
    upList := if container then some ((rules p).validators.map (runRule e p)) else .none
    optional := (rules p).optional
    isEmpty := fun _ => elemIsEmpty (rules p) ((elemAt e p).getD .absent) }

/-- the positions of the children [schema/base.py:402-405, schema/containers.py:274-276, 544-546, 809-812] -/
def childPositions (e : Elem) (p : Pos) : List Pos := (nodeChildren e ⟨p, false⟩).map Node.pos

/-- the tree as `validate()` sees it [schema/base.py:799-845] -/
def formEnv [Runtime] (e : Elem) (rules : Pos → FieldRules) : VEnv Pos (Pos → List PStr) :=
  VEnv.ofClasses (fun _ p => childPositions e p) (formClass e rules)

/-- `root.validate()` of a tree [schema/base.py:768-833] -/
def validateForm [Runtime] (e : Elem) (rules : Pos → FieldRules) (fuel : Nat) (st : VState Pos (Pos → List PStr)) :
    Option (VRun Pos (Pos → List PStr)) := validateTree (formEnv e rules) fuel [] st

/-- one of the validators of validation/scalars.py and containers.py, on the element at a position [validation/scalars.py:7-510, validation/containers.py:109-289] -/
def checkRule [Runtime] (repr : PStr → PStr) (c : Check) (noter : Elem → Pos → Noter) : FormRule where
  decide e p := match elemAt e p with
    | some k => runValidator ⟨elemValue k, elemU repr k, match k with | .list .. | .array .. => true | _ => false⟩ c
    | .none => .ok .none
  noter := noter

end Flatland
