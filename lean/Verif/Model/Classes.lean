import Verif.Model.Properties
import Verif.Model.Forms
import Verif.Model.Validate
/-
Model of the schema constructors, the class methods that make a new class from an existing one: flatland/util/base.py:121-163
(class_cloner), flatland/schema/base.py:155-247 (named, using, validated_by, including_validators, with_properties),
flatland/schema/containers.py:55-96 (the descent validators), 183-228 (Sequence.of), 925-947 (Dict.of) and
flatland/schema/scalars.py:436-445 (Enum.valued).

Classes and mutable objects live in a store, so that a class may share an object with another.
Simplifications: metaclass attributes (`__name__`, `mro`, ...) are no attributes for `using`; a callable given to `using` is wrapped
in `staticmethod` (base.py:188-189), which reads as the callable itself, so it is stored as it is; tuples are kept as lists that
nobody changes; the iterables given are finite; a field that is neither a class nor an element is not considered.
-/
namespace Flatland

/-- an object as a list item: a class, or anything else [schema/base.py:198-216] -/
inductive SchemaObj
  | cls (c : Nat)
  | val (v : PyVal)
  deriving DecidableEq

/-- the value of a class attribute: a list or tuple in the store, a `Properties` object, a dict in the store, a class or a plain value [schema/base.py:69-128] -/
inductive AttrVal
  | obj (o : SchemaObj)
  | list (r : Nat)
  | props (d : Nat)
  | dict (r : Nat)
  deriving DecidableEq

/-- the metaclasses with a `__new__` of their own [schema/forms.py:10-51, schema/compound.py:13-23] -/
inductive MetaKind
  | plain
  | form
  | compound
  deriving DecidableEq

/-- a class: `__mro__`, `__dict__` and metaclass [util/base.py:137-150, Python classes] -/
structure ClassRec where
  mro : List Nat
  dict : PyDict String AttrVal
  kind : MetaKind

/-- the store [schema/base.py:154-247, all classes of a program] -/
structure Heap (K V : Type) where
  classes : List ClassRec
  lists : List (List SchemaObj)
  dicts : List (PyDict K V)
  /-- how many `Properties` objects there are -/
  ndesc : Nat
  props : PropState Nat Nat Unit K V

variable {K V : Type} [DecidableEq K]

/-- `cls.__dict__` [Python; used at schema/properties.py:137-158] -/
def Heap.dictAt (h : Heap K V) (c : Nat) : PyDict String AttrVal := ((h.classes[c]?).map ClassRec.dict).getD []

/-- `cls.__mro__` [Python; used at schema/properties.py:138] -/
def Heap.mroAt (h : Heap K V) (c : Nat) : List Nat := ((h.classes[c]?).map ClassRec.mro).getD []

/-- the metaclass [Python; used at util/base.py:149] -/
def Heap.kindAt (h : Heap K V) (c : Nat) : MetaKind := ((h.classes[c]?).map ClassRec.kind).getD .plain

/-- the class attribute: the first `__dict__` of the MRO that has it [Python attribute lookup; used at schema/base.py:189, 235] -/
def Heap.read (h : Heap K V) (c : Nat) (a : String) : Option AttrVal := (h.mroAt c).findSome? fun b => dictGet (h.dictAt b) a

/-- the contents of a list of the store [schema/base.py:235] -/
def Heap.listAt (h : Heap K V) (r : Nat) : List SchemaObj := (h.lists[r]?).getD []

/-- the `Properties` object in `cls.__dict__`, if any [schema/properties.py:139, 154-157] -/
def Heap.memberAt (h : Heap K V) (c : Nat) : Option Nat :=
  match dictGet (h.dictAt c) "properties" with
  | some (.props d) => some d
  | _ => none

/-- the classes as properties.py sees them [schema/properties.py:137-158] -/
def Heap.world (h : Heap K V) : PropWorld Nat Nat Unit K V where
  mro := h.mroAt
  member := h.memberAt
  initial _ := []
  classOf _ := 0

/-- `setattr(cls, a, v)` [schema/base.py:165, 190, 215, 239] -/
def Heap.setAttr (h : Heap K V) (c : Nat) (a : String) (v : AttrVal) : Heap K V :=
  { h with classes := h.classes.modify c fun r => { r with dict := dictPut r.dict a v } }

/-- a new list [schema/base.py:179, 215, 235] -/
def Heap.newList (h : Heap K V) (xs : List SchemaObj) : Heap K V × Nat := ({ h with lists := h.lists ++ [xs] }, h.lists.length)

/-- `Properties(pairs)` (properties.py:238-241) -/
def Heap.newProps (h : Heap K V) (pairs : List (K × V)) : Heap K V × Nat :=
  ({ h with ndesc := h.ndesc + 1,
            props := { h.props with init := fun d => if d = h.ndesc then (dictOf pairs).map (fun p => (p.1, some p.2)) else h.props.init d } }, h.ndesc)

/-- `field.name` of a field class; `None` for anything that is no class [schema/forms.py:43, 64; schema/containers.py:935] -/
def Heap.fieldName (h : Heap K V) : SchemaObj → Option AttrVal
  | .cls c => h.read c "name"
  | .val _ => none

/-- the fields of a class: `getattr(base, 'field_schema', ())` [schema/forms.py:33] -/
def Heap.fieldsOf (h : Heap K V) (c : Nat) : List SchemaObj :=
  match h.read c "field_schema" with
  | some (.list r) => h.listAt r
  | _ => []

/-- `type(cls.__name__, (cls,), {'__doc__': ..., '__module__': ...})` (util/base.py:143-150), with the work of the metaclasses
(forms.py:28-51, the class body declaring nothing; compound.py:19-24).  `module` is the caller's `__name__`. -/
def Heap.clone (h : Heap K V) (module : PStr) (c : Nat) : Heap K V × Nat :=
  let members : PyDict String AttrVal := ((h.read c "__doc__").map fun v => ("__doc__", v)).toList ++ [("__module__", .obj (.val (.str module)))]
  let h1 := match h.kindAt c with
    | .form => (h.newList (formFields (A := Unit) ⟨h.fieldName, fun f _ => f⟩ [h.fieldsOf c] [] [])).1
    | _ => h
  let members := match h.kindAt c with
    | .plain => members
    | .form => members ++ [("field_schema", .list h.lists.length)]
    | .compound => members ++ [("_compound_prepared", .obj (.val (.bool false)))]
  ({ h1 with classes := h.classes ++ [⟨h.classes.length :: h.mroAt c, members, h.kindAt c⟩] }, h.classes.length)

/-- an argument of `using`: an object, an iterable of other kind than a list in the store, or a mapping (also: pairs) [schema/base.py:177-188] -/
inductive UsingArg (K V : Type)
  | obj (v : AttrVal)
  | iter (xs : List SchemaObj)
  | mapping (pairs : List (K × V))

/-- an argument of `of` [schema/containers.py:184, 926] -/
inductive FieldArg
  | cls (c : Nat)
  | element
  deriving DecidableEq

/-- a call of a constructor [schema/base.py:154-247, schema/containers.py:55-96, 183-227, 925-947, schema/scalars.py:436-445, 568-575] -/
inductive SchemaCall (K V : Type)
  /-- `named(name)` with a text or None -/
  | named (name : Option PStr)
  | using (overrides : List (String × UsingArg K V))
  | validatedBy (vs : List SchemaObj)
  | includingValidators (vs : List SchemaObj) (position : Int)
  | descentValidatedBy (vs : List SchemaObj)
  | includingDescentValidators (vs : List SchemaObj) (position : Int)
  | withProperties (pairs : List (K × V))
  | sequenceOf (schema : List FieldArg)
  | dictOf (fields : List FieldArg)
  | valued (vs : List SchemaObj)

/-- a name as a value [schema/base.py:163-165] -/
def nameValue : Option PStr → PyVal
  | none => .none
  | some s => .str s

/-- `isinstance(validator, six.class_types)` [schema/base.py:210, schema/containers.py:66] -/
def SchemaObj.isClass : SchemaObj → Bool
  | .cls _ => true
  | .val _ => false

/-- what is stored for an override (base.py:179-185, before the loop) -/
def overrideValue (h : Heap K V) (a : String) (arg : UsingArg K V) : Heap K V × Except PyErr AttrVal :=
  if a = "validators" then
    match arg with
    | .obj (.list r) => ((h.newList (h.listAt r)).1, .ok (.list (h.newList (h.listAt r)).2))
    | .iter xs => ((h.newList xs).1, .ok (.list (h.newList xs).2))
    | _ => (h, .error .type)
  else if a = "properties" then
    match arg with
    | .obj (.props d) => (h, .ok (.props d))
    | .obj (.dict r) => ((h.newProps ((h.dicts[r]?).getD [])).1, .ok (.props (h.newProps ((h.dicts[r]?).getD [])).2))
    | .mapping pairs => ((h.newProps pairs).1, .ok (.props (h.newProps pairs).2))
    | _ => (h, .error .type)
  else
    match arg with
    | .obj v => (h, .ok v)
    | .iter xs => ((h.newList xs).1, .ok (.list (h.newList xs).2))
    | .mapping pairs => ({ h with dicts := h.dicts ++ [dictOf pairs] }, .ok (.dict h.dicts.length))

/-- the values of all overrides.  Simplification: `validators` and `properties` are converted in the order given. [schema/base.py:177-183] -/
def overrideValues : Heap K V → List (String × UsingArg K V) → Heap K V × Except PyErr (List (String × AttrVal))
  | h, [] => (h, .ok [])
  | h, (a, arg) :: rest => match overrideValue h a arg with
    | (h1, .error e) => (h1, .error e)
    | (h1, .ok v) => match overrideValues h1 rest with
      | (h2, .error e) => (h2, .error e)
      | (h2, .ok vs) => (h2, .ok ((a, v) :: vs))

/-- the loop of `using` (base.py:187-196) -/
def setOverrides (h : Heap K V) (c : Nat) : List (String × AttrVal) → Heap K V × Except PyErr Nat
  | [] => (h, .ok c)
  | (a, v) :: rest => match h.read c a with
    | none => (h, .error .type)
    | some _ => setOverrides (h.setAttr c a v) c rest

/-- `cls.validators = list(validators)` with the check for classes (base.py:208-217, containers.py:64-72) -/
def replaceValidators (h : Heap K V) (c : Nat) (a : String) (vs : List SchemaObj) : Heap K V × Except PyErr Nat :=
  if vs.any SchemaObj.isClass then (h, .error .type)
  else (((h.newList vs).1).setAttr c a (.list (h.newList vs).2), .ok c)

/-- `including_validators` (base.py:234-240, containers.py:91-96) -/
def addValidators (h : Heap K V) (c : Nat) (a : String) (vs : List SchemaObj) (position : Int) : Heap K V × Except PyErr Nat :=
  match h.read c a with
  | some (.list r) =>
    (((h.newList (includingValidators (h.listAt r) vs position)).1).setAttr c a (.list (h.newList (includingValidators (h.listAt r) vs position)).2), .ok c)
  | some _ => (h, .error .type)
  | none => (h, .error .attribute)

/-- `cls.properties.update(simplified)` (base.py:245-246) -/
def updateProperties (h : Heap K V) (c : Nat) (pairs : List (K × V)) : Heap K V × Except PyErr Nat :=
  match h.read c "properties" with
  | some (.props d) => ({ h with props := (typeOp h.world h.props d c (.update pairs)).1 }, .ok c)
  | some (.dict r) => ({ h with dicts := h.dicts.modify r fun e => dictUpdate e (dictOf pairs) }, .ok c)
  | _ => (h, .error .attribute)

/-- the fields as objects, unless one of them is an element (containers.py:216-219, 930-933) -/
def fieldClasses : List FieldArg → Option (List SchemaObj)
  | [] => some []
  | .element :: _ => none
  | .cls c :: rest => (fieldClasses rest).map (SchemaObj.cls c :: ·)

/-- `Dict.of` (containers.py:930-947) -/
def dictOfFields (h : Heap K V) (c : Nat) (fields : List FieldArg) : Heap K V × Except PyErr Nat :=
  match fieldClasses fields with
  | none => (h, .error .type)
  | some fs => if (fs.map h.fieldName).Nodup then (((h.newList fs).1).setAttr c "field_schema" (.list (h.newList fs).2), .ok c) else (h, .error .type)

/-- `Sequence.of` (containers.py:217-227); `dictClass` is `Dict`, called from the module `flatland.schema.containers` -/
def sequenceOfFields (h : Heap K V) (dictClass c : Nat) (schema : List FieldArg) : Heap K V × Except PyErr Nat :=
  match fieldClasses schema with
  | none => (h, .error .type)
  | some [] => (h, .error .type)
  | some [s] => (h.setAttr c "member_schema" (.obj s), .ok c)
  | some _ => match dictOfFields (h.clone "flatland.schema.containers".toList dictClass).1 (h.clone "flatland.schema.containers".toList dictClass).2 schema with
    | (h1, .error e) => (h1, .error e)
    | (h1, .ok d) => (h1.setAttr c "member_schema" (.obj (.cls d)), .ok c)

/-- the decorated function, run on the new class [util/base.py:150] -/
def runOn (h : Heap K V) (dictClass c : Nat) : SchemaCall K V → Heap K V × Except PyErr Nat
  | .named name => (h.setAttr c "name" (.obj (.val (nameValue name))), .ok c)
  | .using overrides => match overrideValues h overrides with
    | (h1, .error e) => (h1, .error e)
    | (h1, .ok vs) => setOverrides h1 c vs
  | .validatedBy vs => replaceValidators h c "validators" vs
  | .includingValidators vs p => addValidators h c "validators" vs p
  | .descentValidatedBy vs => replaceValidators h c "descent_validators" vs
  | .includingDescentValidators vs p => addValidators h c "descent_validators" vs p
  | .withProperties pairs => updateProperties h c pairs
  | .sequenceOf schema => sequenceOfFields h dictClass c schema
  | .dictOf fields => dictOfFields h c fields
  | .valued vs => (((h.newList vs).1).setAttr c "valid_values" (.list (h.newList vs).2), .ok c)

/-- `cls.constructor(...)`: `class_cloner.__get__` (util/base.py:136-151), then the function -/
def callSchema (h : Heap K V) (module : PStr) (dictClass c : Nat) (call : SchemaCall K V) : Heap K V × Except PyErr Nat :=
  runOn (h.clone module c).1 dictClass (h.clone module c).2 call

/-- a sequence of calls, each on some class of the store, errors being caught [util/base.py:137-150, client code] -/
def runCalls (module : PStr) (dictClass : Nat) : Heap K V → List (Nat × SchemaCall K V) → Heap K V
  | h, [] => h
  | h, (c, call) :: rest => runCalls module dictClass (callSchema h module dictClass c call).1 rest

end Flatland
