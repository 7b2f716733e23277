import Verif.Model.RichValidation
/-!
`validate()` and `all_valid` of an element within a form (flatland/schema/base.py:364-377, 768-833).

Simplifications: as in Model/FormValidation.lean and Model/RichValidation.lean.
-/
namespace Flatland
open Flatland.Spec (Pos)

/-- `el.validate()` of the element at `p` [schema/base.py:768-833] -/
def validateFormAt [Runtime] (e : Elem) (rules : Pos → FieldRules) (fuel : Nat) (p : Pos) (st : VState Pos (Pos → List PStr)) :
    Option (VRun Pos (Pos → List PStr)) := validateTree (formEnv e rules) fuel p st

/-- `el.all_children` of the element at `p` [schema/base.py:407-418] -/
def formAllChildren (e : Elem) (fuel : Nat) (p : Pos) : Option (List Pos) := allChildrenIds (childPositions e) fuel p

/-- `el.all_children` in a form with Compounds and JoinedStrings [schema/base.py:407-418] -/
def richAllChildren (e : NElem) (fuel : Nat) (p : Pos) : Option (List Pos) := formAllChildren (shape e) fuel p

/-- `el.all_valid` of the element at `p` [schema/base.py:364-371, 408-418] -/
def formAllValid (e : Elem) (fuel : Nat) (p : Pos) (st : VState Pos (Pos → List PStr)) : Option Bool := getAllValid (childPositions e) fuel p st

/-- `el.all_valid = x` for the element at `p` [schema/base.py:373-377, 408-418] -/
def setFormAllValid (e : Elem) (fuel : Nat) (p : Pos) (x : Flag) (st : VState Pos (Pos → List PStr)) : Option (VState Pos (Pos → List PStr)) :=
  setAllValid (childPositions e) fuel p x st

/-- `el.validate()` in a form with Compounds and JoinedStrings [schema/base.py:768-833] -/
def validateRichAt [Runtime] (e : NElem) (rules : Pos → RichField) (fuel : Nat) (p : Pos) (st : VState Pos (Pos → List PStr)) :
    Option (VRun Pos (Pos → List PStr)) := validateTree (richEnv e rules) fuel p st

/-- `el.all_valid` in a form with Compounds and JoinedStrings [schema/base.py:364-371, 408-418] -/
def richAllValid (e : NElem) (fuel : Nat) (p : Pos) (st : VState Pos (Pos → List PStr)) : Option Bool := formAllValid (shape e) fuel p st

end Flatland
