import Verif.Model.RefChain
/-
Model of a Dict with scalar and Ref fields: flatland/schema/containers.py: Mapping._set_flat, Dict.set, Mapping.value; flatland/schema/base.py: flatten.

Simplified: the Dict has no name and is the root, its policy is 'subset'; the target of a Ref is a scalar field of the same Dict, known by its position; the `raw` of Refs
and the None that `set_flat` puts into the `raw` of fields it has no value for are left out.
-/
namespace Flatland

/-- a field: a scalar of a class, or a Ref with its `writable` and the position of its target [schema/scalars.py:558-585] -/
inductive RefField where
  | scalar (name : PStr) (t : ScalarType)
  | ref (name : PStr) (wr : Writable) (target : Nat)

/-- the field's name [schema/base.py:69] -/
def RefField.name : RefField → PStr
  | .scalar n _ => n
  | .ref n _ _ => n

/-- the class of the scalar at a position [schema/containers.py:737-742] -/
def fieldType [Runtime] (fields : List RefField) (i : Nat) : ScalarType :=
  match fields[i]? with
  | some (.scalar _ t) => t
  | _ => stringType true

/-- a new form [schema/containers.py:743-750, 771-776] -/
def refFormNew [Runtime] (fields : List RefField) : ChainForm := ⟨fieldType fields, fun _ => .fresh⟩

/-- `self[key].set(value)` for the field at position `i` [schema/scalars.py:71-94] -/
def refFormSet [Runtime] (f : ChainForm) (i : Nat) (fd : RefField) (v : PyVal) : ChainForm × Except PyErr Bool :=
  match fd with
  | .scalar _ t => ({ f with cells := fun k => if k = i then (scalarSet t (f.cells i) v).1 else f.cells k }, (scalarSet t (f.cells i) v).2)
  | .ref _ wr n => chainSet f n [wr] v

/-- `Mapping._set_flat`, flatland/schema/containers.py:855-866, from the field at position `i` on, with Scalar._set_flat (schema/scalars.py:123-127). -/
def refFormFlat [Runtime] (pairs : List (PStr × PStr)) : List RefField → Nat → ChainForm → ChainForm × Except PyErr Unit
  | [], _, f => (f, .ok ())
  | fd :: rest, i, f =>
    match pairs.find? fun p => p.1 = fd.name with
    | .none => refFormFlat pairs rest (i + 1) f
    | some p => match refFormSet f i fd (.str p.2) with
      | (f, .error e) => (f, .error e)
      | (f, .ok _) => refFormFlat pairs rest (i + 1) f

/-- `from_flat` [schema/base.py:298-320] -/
def refFormFromFlat [Runtime] (fields : List RefField) (pairs : List (PStr × PStr)) : ChainForm × Except PyErr Unit :=
  refFormFlat pairs fields 0 (refFormNew fields)

/-- `flatten()`, flatland/schema/base.py:651-699: Refs are not flattenable (schema/scalars.py:559); from position `i` on. -/
def refFormPairs (f : ChainForm) : List RefField → Nat → List (PStr × PStr)
  | [], _ => []
  | .scalar n _ :: rest, i => (n, (f.cells i).u) :: refFormPairs f rest (i + 1)
  | .ref _ _ _ :: rest, i => refFormPairs f rest (i + 1)

/-- `Mapping.value`, flatland/schema/containers.py:889-892: Refs too; from position `i` on. -/
def refFormValue (f : ChainForm) : List RefField → Nat → List (PStr × PyVal)
  | [], _ => []
  | .scalar n _ :: rest, i => (n, (f.cells i).value) :: refFormValue f rest (i + 1)
  | .ref n _ k :: rest, i => (n, (f.cells k).value) :: refFormValue f rest (i + 1)

/-- the field of that name and its position [schema/containers.py:914-926, 989] -/
def fieldNamed (key : PStr) : List RefField → Nat → Option (Nat × RefField)
  | [], _ => .none
  | fd :: rest, i => if fd.name = key then some (i, fd) else fieldNamed key rest (i + 1)

/-- the loop of `Dict.set`, flatland/schema/containers.py:990-1004, on the pairs of a mapping. -/
def refFormSetPairs [Runtime] (fields : List RefField) : List (PStr × PyVal) → ChainForm → Bool → ChainForm × Except PyErr Bool
  | [], f, converted => (f, .ok converted)
  | (key, v) :: rest, f, converted =>
    match fieldNamed key fields 0 with
    | .none => (f, .error .key)
    | some (i, fd) => match refFormSet f i fd v with
      | (f, .error e) => (f, .error e)
      | (f, .ok b) => refFormSetPairs fields rest f (converted && b)

/-- `form.set(value)` on a new form, flatland/schema/containers.py:978-1015. -/
def refFormSetAll [Runtime] (fields : List RefField) (value : List (PStr × PyVal)) : ChainForm × Except PyErr Bool :=
  refFormSetPairs fields value (refFormNew fields) true

end Flatland
