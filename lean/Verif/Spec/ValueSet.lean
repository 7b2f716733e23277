import Verif.Model.Values
/-! Specifications: what `set` takes from a value, for whole element trees (C26, C30). -/
namespace Flatland.Spec
open Flatland

/-- what iterating over a value gives: the items of a list, the keys of a dict, the characters of a text; nothing else can be iterated -/
def itemsOf : PyVal → Option (List PyVal)
  | .list xs => some xs
  | .dict kvs => some (kvs.map fun p => .str p.1)
  | .str s => some (s.map fun c => .str [c])
  | _ => .none

/-- one thing that a Dict meets when it goes through a value: a key with its value, or something that is no such pair -/
inductive Entry
  | pair (key value : PyVal)
  | bad (er : PyErr)

/-- an item of a sequence as an entry: it has to consist of two things -/
def entryOf (x : PyVal) : Entry :=
  match itemsOf x with
  | some [k, v] => .pair k v
  | some _ => .bad .value
  | .none => .bad .type

/-- the entries of a value: the items of a dict, or the items of anything else that can be iterated, each a pair -/
def entriesOf : PyVal → Option (List Entry)
  | .dict kvs => some (kvs.map fun p => .pair (.str p.1) p.2)
  | v => (itemsOf v).map fun xs => xs.map entryOf

/-- lists and dicts cannot be looked up -/
def Unhashable : PyVal → Prop
  | .list _ => True
  | .dict _ => True
  | _ => False

/-- the entry supplies `v` for the field -/
def Supplies (f : Schema) (x : Entry) (v : PyVal) : Prop := ∃ n, f.name = some n ∧ x = .pair (.str n) v

/-- the key belongs to no field -/
def Unknown (fs : List Schema) (k : PyVal) : Prop := ∀ f ∈ fs, ∀ n, f.name = some n → k ≠ .str n

section
variable [Runtime]

/-- going through the entries stops at this one, with this exception -/
inductive StopsAt (pol : Policy) (fs : List Schema) : Entry → PyErr → Prop
  | bad (er) : StopsAt pol fs (.bad er) er
  | unhashable {k v} : Unhashable k → StopsAt pol fs (.pair k v) .type
  | unknown {k v} : ¬ Unhashable k → Unknown fs k → pol ≠ .duck → StopsAt pol fs (.pair k v) .key
  | field {f x v er} : f ∈ fs → Supplies f x v → setVal f v = .error er → StopsAt pol fs x er

/-- the field was not supplied -/
def Unsupplied (f : Schema) (l : List Entry) : Prop := ∀ x ∈ l, ∀ v, ¬ Supplies f x v

/-- what is at a field that no value was supplied for: a Dict has a new element, a SparseDict only if it keeps its required fields
and this is one -/
def unsuppliedField (mode : DictMode) (f : Schema) : Elem :=
  match mode with
  | .full => fresh f
  | .sparse => .absent
  | .sparseRequired => if f.hdr.optional then .absent else fresh f

/-- `kid` is what the entries leave at the field: the element of the last value supplied, if there is one -/
def LeftAt (mode : DictMode) (f : Schema) (l : List Entry) (kid : Elem) : Prop :=
  (Unsupplied f l ∧ kid = unsuppliedField mode f) ∨
  ∃ pre x post v b, l = pre ++ x :: post ∧ Supplies f x v ∧ Unsupplied f post ∧ setVal f v = .ok (kid, b)

end
end Flatland.Spec
