import Verif.Spec.SetFlat
import Verif.Spec.Tree
import Verif.Spec.FormValidation
/-! What a submission says about the fields of a form. -/
namespace Flatland.Spec
open Flatland

/-- A form of named scalars in Dicts of any nesting (no SparseDicts, no sequences); the form itself need not have a name. -/
inductive PlainForm : Schema → Prop
  | scalar (h : Hdr) (t : ScalarType) : h.name ≠ none → PlainForm (.scalar h t)
  | dict (h : Hdr) (po : Policy) (fs : List Schema) : (∀ f ∈ fs, f.name ≠ none) → (∀ f ∈ fs, PlainForm f) → PlainForm (.dict h .full po fs)

/-- The scalar field at a position, reached through Dicts, and the key it is submitted under: the names from the root down to the
field, joined with the separator. -/
inductive FieldOf (sep : PStr) : Schema → Pos → PStr → Hdr → ScalarType → Prop
  | here {h : Hdr} {t : ScalarType} {n : PStr} : h.name = some n → FieldOf sep (.scalar h t) [] n h t
  | unnamed {h : Hdr} {mode : DictMode} {po : Policy} {fs : List Schema} {i : Nat} {f : Schema} {p : Pos} {key : PStr} {hd : Hdr} {t : ScalarType} :
      h.name = none → fs[i]? = some f → f.name ≠ none → FieldOf sep f p key hd t → FieldOf sep (.dict h mode po fs) (i :: p) key hd t
  | named {h : Hdr} {mode : DictMode} {po : Policy} {fs : List Schema} {i : Nat} {f : Schema} {p : Pos} {key : PStr} {hd : Hdr} {t : ScalarType} {n : PStr} :
      h.name = some n → fs[i]? = some f → f.name ≠ none → FieldOf sep f p key hd t → FieldOf sep (.dict h mode po fs) (i :: p) (n ++ sep ++ key) hd t

/-- the first value submitted under a key -/
def submitted (key : PStr) (ps : List (PStr × PStr)) : Option PStr := (ps.find? fun kv => kv.1 == key).map Prod.snd

/-- what `set` makes of the value submitted; nothing submitted, nothing changed -/
def afterSubmission [Runtime] (t : ScalarType) (st : ScalarState) : Option PStr → ScalarState
  | .none => st
  | some v => (scalarSet t st (.str v)).1

/-- the field of a new form after the submission -/
def submittedField [Runtime] (h : Hdr) (t : ScalarType) (v : Option PStr) : Elem := .scalar h.name (afterSubmission t .fresh v)

end Flatland.Spec
