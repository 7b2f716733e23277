import Verif.Spec.Parts
import Verif.Spec.ArrayFlat
/-! Submitted forms with Arrays in them: multiple choices (C98). -/
namespace Flatland.Spec
open Flatland
variable [Runtime]

/-- Scalars and Arrays of scalars in Dicts, SparseDicts and Lists, of any nesting; Lists have no Arrays as rows. -/
inductive ChoiceForm : Schema → Prop
  | scalar (h : Hdr) (t : ScalarType) : ChoiceForm (.scalar h t)
  | array (h : Hdr) (prune : Bool) (hm : Hdr) (t : ScalarType) : GoodName h.name → GoodName hm.name → TextSafe t → ChoiceForm (.array h prune (.scalar hm t))
  | dict (h : Hdr) (mode : DictMode) (po : Policy) (fs : List Schema) : (∀ f ∈ fs, ChoiceForm f) → ChoiceForm (.dict h mode po fs)
  | list (h : Hdr) (prune : Bool) (max : Nat) (m : Schema) : ChoiceForm m → (∀ h' prune' m', m ≠ .array h' prune' m') → ChoiceForm (.list h prune max m)

omit [Runtime] in
/-- what a pair adds to the choices: nothing, a choice that is not set, or one set from the value -/
def Taken.choice : Taken → Option (Option PStr)
  | .nothing => .none
  | .blank => some .none
  | .value v => some (some v)

omit [Runtime] in
/-- the choices that pairs make, in their order -/
def choices (sep : PStr) (h : Hdr) (prune : Bool) (hm : Hdr) (ps : List (PStr × PStr)) : List (Option PStr) :=
  ps.filterMap fun p => (takenFrom sep h.name hm.name prune p.1 p.2).choice

/-- the Array of these choices -/
def choiceArray (h hm : Hdr) (t : ScalarType) (cs : List (Option PStr)) : Elem := .array h.name (cs.map (submittedField hm t))

/-- An element is fine: it is blank and optional, or meets all its requirements – or, if it has none, it is not blank. -/
def FineElem (repr : PStr → PStr) (rules : FieldRules) (checks : List Check) (k : Elem) : Prop :=
  Excused rules k ∨ ((∀ c ∈ checks, Meets (checked repr k) c) ∧ (checks = [] → ¬ IsBlank rules k))

end Flatland.Spec
