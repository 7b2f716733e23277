import Verif.Model.Classes
/-! Specification: what can be seen of a class. -/
namespace Flatland.Spec
open Flatland

variable {K V : Type} [DecidableEq K]

/-- what is seen: an object, the items of a list, the entries of a mapping -/
inductive Seen (K V : Type)
  | obj (o : SchemaObj)
  | items (xs : List SchemaObj)
  | entries (kvs : List (K × V))
  deriving DecidableEq

/-- what is seen of an attribute value, read at the class `c` -/
def view (h : Heap K V) (c : Nat) : AttrVal → Seen K V
  | .obj o => .obj o
  | .list r => .items (h.listAt r)
  | .props d => .entries (typeItems h.world h.props d c)
  | .dict r => .entries ((h.dicts[r]?).getD [])

/-- what reading the attribute of a class shows (`none`: AttributeError) -/
def look (h : Heap K V) (c : Nat) (a : String) : Option (Seen K V) := (h.read c a).map (view h c)

/-- the references in an attribute value exist -/
def RefOk (h : Heap K V) : AttrVal → Prop
  | .obj _ => True
  | .list r => r < h.lists.length
  | .props d => d < h.ndesc
  | .dict r => r < h.dicts.length

/-- a store of classes as Python has it: classes come first in their own MRO, which consists of existing classes; what they refer to
exists; there are no properties yet for classes to come -/
structure WellFormed (h : Heap K V) : Prop where
  self : ∀ c, c < h.classes.length → ∃ rest, h.mroAt c = c :: rest
  mro : ∀ c, ∀ b ∈ h.mroAt c, b < h.classes.length
  refs : ∀ c a v, dictGet (h.dictAt c) a = some v → RefOk h v
  fresh : ∀ d c, h.classes.length ≤ c → h.props.map d c = none

/-- no class's `properties` is a plain dict -/
def DeclaredProperties (h : Heap K V) : Prop := ∀ c r, dictGet (h.dictAt c) "properties" ≠ some (.dict r)

/-- the arguments exist -/
def ArgsExist (h : Heap K V) : SchemaCall K V → Prop
  | .using overrides => ∀ a v, (a, UsingArg.obj v) ∈ overrides → RefOk h v
  | _ => True

/-- the attributes a constructor is there to set -/
def sets : SchemaCall K V → List String
  | .named _ => ["name"]
  | .using overrides => overrides.map Prod.fst
  | .validatedBy _ => ["validators"]
  | .includingValidators _ _ => ["validators"]
  | .descentValidatedBy _ => ["descent_validators"]
  | .includingDescentValidators _ _ => ["descent_validators"]
  | .withProperties _ => ["properties"]
  | .sequenceOf _ => ["member_schema"]
  | .dictOf _ => ["field_schema"]
  | .valued _ => ["valid_values"]

/-- every call is on an existing class, with existing arguments -/
def GoodCalls (module : PStr) (dictClass : Nat) : Heap K V → List (Nat × SchemaCall K V) → Prop
  | _, [] => True
  | h, (c, call) :: rest => c < h.classes.length ∧ ArgsExist h call ∧ GoodCalls module dictClass (callSchema h module dictClass c call).1 rest

/-- what an argument of `using` shows when it is read back; nothing is said here about `Properties` objects -/
def argSeen (h : Heap K V) (a : String) : UsingArg K V → Option (Seen K V)
  | .obj (.obj o) => some (.obj o)
  | .obj (.list r) => some (.items (h.listAt r))
  | .obj (.dict r) => some (.entries (if a = "properties" then dictOf ((h.dicts[r]?).getD []) else (h.dicts[r]?).getD []))
  | .obj (.props _) => none
  | .iter xs => some (.items xs)
  | .mapping pairs => some (.entries (dictOf pairs))

/-- the arguments of `using` that can be converted: an iterable for `validators`, a mapping for `properties` -/
def Convertible (p : String × UsingArg K V) : Prop :=
  (p.1 = "validators" → (∃ r, p.2 = .obj (.list r)) ∨ ∃ xs, p.2 = .iter xs) ∧
  (p.1 = "properties" → (∃ d, p.2 = .obj (.props d)) ∨ (∃ r, p.2 = .obj (.dict r)) ∨ ∃ pairs, p.2 = .mapping pairs)

end Flatland.Spec
