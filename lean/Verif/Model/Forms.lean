import Verif.Model.Mappings
/-
Model of flatland/schema/forms.py: how the fields of a Form class are put together.

A field is an Element class; generic in its representation `F`.  Names `N` (a field may have no name).
Simplification: no two classes compare equal unless they are the same (no metaclass defines `==`).
-/
namespace Flatland

variable {N F A : Type} [DecidableEq N] [DecidableEq F]

/-- what is used of a field class: `field.name` and `field.named(name)` (base.py:154-166) -/
structure FieldClass (N F : Type) where
  name : F → N
  named : F → N → F

/-- `_ElementCollection` (forms.py:54-59) -/
structure Collection (N F : Type) where
  elements : List F
  names : List N

/-- `_ElementCollection()` [schema/forms.py:57-59] -/
def Collection.empty : Collection N F := ⟨[], []⟩

/-- `add_unseen` (forms.py:61-67) -/
def addUnseen (fc : FieldClass N F) : Collection N F → List F → Collection N F
  | col, [] => col
  | col, f :: fs => if fc.name f ∈ col.names then addUnseen fc col fs
    else addUnseen fc ⟨col.elements ++ [f], fc.name f :: col.names⟩ fs

/-- the inner loop of `add_and_overwrite` (forms.py:73-76): remove the first of that name -/
def dropNamed (fc : FieldClass N F) (n : N) : List F → List F → List F
  | all, [] => all
  | all, have_ :: rest => if fc.name have_ = n then all.erase have_ else dropNamed fc n all rest

/-- `add_and_overwrite` (forms.py:69-78) -/
def addOverwrite (fc : FieldClass N F) : Collection N F → List F → Collection N F
  | col, [] => col
  | col, f :: fs =>
    addOverwrite fc ⟨(if fc.name f ∈ col.names then dropNamed fc (fc.name f) col.elements col.elements else col.elements) ++ [f], fc.name f :: col.names⟩ fs

/-- a member of a class body: an Element class, or anything else [schema/forms.py:40-42] -/
inductive Member (F A : Type)
  | field (f : F)
  | other (a : A)

/-- `for base in bases: fields.add_unseen(...)` [schema/forms.py:32-33] -/
def addBases (fc : FieldClass N F) : Collection N F → List (List F) → Collection N F
  | col, [] => col
  | col, b :: bs => addBases fc (addUnseen fc col b) bs

/-- the loop over the class body (forms.py:40-46): the declared fields, renamed where needed -/
def declaredFields (fc : FieldClass N F) : List (N × Member F A) → List F
  | [] => []
  | (n, .field f) :: ms => (if n ≠ fc.name f then fc.named f n else f) :: declaredFields fc ms
  | (_, .other _) :: ms => declaredFields fc ms

/-- what the same loop leaves in the class body (forms.py:46) -/
def remainingMembers : List (N × Member F A) → List (N × A)
  | [] => []
  | (_, .field _) :: ms => remainingMembers ms
  | (n, .other a) :: ms => (n, a) :: remainingMembers ms

/-- `_MetaForm.__new__` (forms.py:28-51): the `field_schema` of the new class, from the `field_schema` of each base, the one given
in the class body (empty if none) and the members of the class body -/
def formFields (fc : FieldClass N F) (bases : List (List F)) (own : List F) (members : List (N × Member F A)) : List F :=
  (addOverwrite fc (addOverwrite fc (addBases fc .empty bases) own) (declaredFields fc members)).elements

/-- a class declaration that takes part in an inheritance graph: the bases are numbers of earlier declarations [schema/forms.py:28-51, client code] -/
structure FormDecl (N F A : Type) where
  bases : List Nat
  own : List F
  members : List (N × Member F A)

/-- the `field_schema` of every class of a program, in order of declaration [schema/forms.py:28-51, client code] -/
def formProgram (fc : FieldClass N F) : List (List F) → List (FormDecl N F A) → List (List F)
  | done, [] => done
  | done, d :: ds => formProgram fc (done ++ [formFields fc (d.bases.map fun b => done.getD b []) d.own d.members]) ds

end Flatland
