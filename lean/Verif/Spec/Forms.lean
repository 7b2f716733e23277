import Verif.Model.Forms
/-! Specification of field inheritance. -/
namespace Flatland.Spec
open Flatland

variable {N F A : Type} [DecidableEq N]

/-- the first field of that name -/
def firstNamed (fc : FieldClass N F) (n : N) (fs : List F) : Option F := fs.find? fun f => decide (fc.name f = n)
/-- the last field of that name -/
def lastNamed (fc : FieldClass N F) (n : N) (fs : List F) : Option F := fs.reverse.find? fun f => decide (fc.name f = n)

/-- the attribute of that name, if it is a field, under its new name -/
def attributeField (fc : FieldClass N F) (n : N) : List (N × Member F A) → Option F
  | [] => none
  | (m, .field f) :: ms => if m = n then some (if fc.name f = n then f else fc.named f n) else attributeField fc n ms
  | (_, .other _) :: ms => attributeField fc n ms

/-- the field of that name: an attribute of the class body, else the one in its field_schema (the last of that name), else that of the
earliest base that has one (the first of that name there) -/
def resolve (fc : FieldClass N F) (bases : List (List F)) (own : List F) (members : List (N × Member F A)) (n : N) : Option F :=
  (attributeField fc n members).or ((lastNamed fc n own).or (firstNamed fc n bases.flatten))

/-- `named` names -/
def Renames (fc : FieldClass N F) : Prop := ∀ f n, fc.name (fc.named f n) = n

/-- what one class body declares under that name -/
def declares (fc : FieldClass N F) (own : List F) (members : List (N × Member F A)) (n : N) : Option F :=
  (attributeField fc n members).or (lastNamed fc n own)

/-- ordinary attribute lookup: the first class of the resolution order that declares the name -/
def lookupAlong (fc : FieldClass N F) (decls : List (FormDecl N F A)) (n : N) : List Nat → Option F
  | [] => none
  | c :: mro => (match decls[c]? with
      | some d => declares fc d.own d.members n
      | none => none).or (lookupAlong fc decls n mro)

end Flatland.Spec
