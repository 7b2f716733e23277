import Verif.Model.ListOps
/-
Model of Dict and SparseDict (flatland/schema/containers.py:737-1240) and of keyslice_pairs (flatland/util/base.py:252-299).

Generic in the keys `K`, the element representation `E` and the plain values `V`.  The state of a mapping is its underlying Python
dict.  Every operation yields the new state, also when it raises.
Simplifications: an element object is not also a child elsewhere; code called from inside an operation (adapters, default
factories) does not modify the mapping.
-/
namespace Flatland

variable {K V E : Type} [DecidableEq K]

/-- a Python dict, in insertion order -/
abbrev PyDict (K E : Type) := List (K × E)

/-- `d[k]` [Python dict; used at schema/containers.py:752-807] -/
def dictGet (d : PyDict K E) (k : K) : Option E :=
  match d with
  | [] => .none
  | (k', e) :: rest => if k' = k then some e else dictGet rest k

/-- `dict.__setitem__(d, k, e)` [Python dict; used at schema/containers.py:775, 1147-1163] -/
def dictPut (d : PyDict K E) (k : K) (e : E) : PyDict K E :=
  match d with
  | [] => [(k, e)]
  | (k', e') :: rest => if k' = k then (k', e) :: rest else (k', e') :: dictPut rest k e

/-- `dict.__delitem__(d, k)` for a key that is there [Python dict; used at schema/containers.py:1170, 1190] -/
def dictDel (d : PyDict K E) (k : K) : PyDict K E :=
  match d with
  | [] => []
  | (k', e') :: rest => if k' = k then rest else (k', e') :: dictDel rest k

/-- `d.keys()` [Python dict; used at schema/containers.py:1007, 1073] -/
def dictKeys (d : PyDict K E) : List K := d.map Prod.fst

/-- `dict(pairs)`: a later pair with the same key wins [Python dict; used at schema/containers.py:906, 1089, 1111] -/
def dictOf (pairs : List (K × E)) : PyDict K E := pairs.foldl (fun d p => dictPut d p.1 p.2) []

/-- One entry of `field_schema`: its `name` and `optional`, the class as constructor and setter, `isinstance(x, schema)`,
`el.optional` of an instance, `el.is_empty`, `el.set_default()` and `schema.from_defaults()`. [schema/containers.py:740, 899-913] -/
structure Field (K V E : Type) where
  name : K
  optional : Bool := false
  cls : MemberClass V E
  isInstance : E → Bool
  optionalOf : E → Bool
  isEmpty : E → Bool
  setDefault : E → E × Except PyErr Unit
  fromDefaults : Except PyErr E

/-- `minimum_fields`, containers.py:1127-1135; `full` is Dict, which has no such attribute -/
inductive MapMode
  | full | sparse | required
  deriving DecidableEq

/-- the class: fields, kind, `policy` (containers.py:919-923; the value list of the `assert` is a type here) and the default value -/
inductive MapPolicy
  | strict | subset | duck
  deriving DecidableEq

/-- (key, value) pairs as `to_pairs` delivers them (util/base.py:235-249): a sequence that ends normally or raises while it is
being consumed, or an object that is refused before anything is consumed -/
inductive Pairs (K V E : Type)
  | refused (er : PyErr)
  | seq (items : List (K × Arg V E)) (fails : Option PyErr)

/-- a mapping class [schema/containers.py:740, 919, 1136] -/
structure MapClass (K V E : Type) where
  fields : List (Field K V E)
  mode : MapMode
  policy : MapPolicy
  /-- `default_value` when it is neither None nor Unspecified -/
  default : Option (Pairs K V E)

/-- `_field_schema_for(key)` (containers.py:908-913), also `field_schema_mapping` (containers.py:898-906): names are unique
(containers.py:934-944) -/
def fieldFor (c : MapClass K V E) (k : K) : Option (Field K V E) := c.fields.find? fun f => f.name = k

/-- which fields `_reset` puts in place (containers.py:771-776, 1141-1148) -/
def autoIn (m : MapMode) (f : Field K V E) : Bool :=
  match m with
  | .full => true
  | .sparse => false
  | .required => !f.optional

/-- the loop of `_reset` [schema/containers.py:771-776, 1141-1148] -/
def resetLoop (m : MapMode) : List (Field K V E) → PyDict K E → PyDict K E
  | [], d => d
  | f :: fs, d => resetLoop m fs (if autoIn m f then dictPut d f.name f.cls.blank else d)

/-- `_reset()`: Mapping writes over what is there (containers.py:771-776), SparseDict clears first (containers.py:1141-1148) -/
def mapReset (c : MapClass K V E) (d : PyDict K E) : PyDict K E :=
  match c.mode with
  | .full => resetLoop c.mode c.fields d
  | _ => resetLoop c.mode c.fields []

/-- `self[key].set(value)` for a key that is there [schema/containers.py:756, 1000] -/
def setChild (d : PyDict K E) (k : K) (f : Field K V E) (e : E) (a : Arg V E) : PyDict K E × Except PyErr Bool :=
  match f.cls.set e a with
  | (e', r) => (dictPut d k e', r)

/-- `m[key] = value`: Mapping (containers.py:752-756), SparseDict (containers.py:1150-1165) -/
def mapSetItem (c : MapClass K V E) (d : PyDict K E) (k : K) (a : Arg V E) : PyDict K E × Except PyErr Unit :=
  match c.mode, fieldFor c k, dictGet d k with
  | .full, some f, some e => ((setChild d k f e a).1, (setChild d k f e a).2.map fun _ => ())
  | .full, _, _ => (d, .error .type)
  | _, .none, _ => (d, .error .type)
  | _, some f, .none => match a with
    | .el x => if f.isInstance x then (dictPut d k x, .ok ())
      else match f.cls.set f.cls.blank (.el x) with
        | (e, .ok _) => (dictPut d k e, .ok ())
        | (_, .error er) => (d, .error er)
    | .val v => match f.cls.make v with
      | .ok x => (dictPut d k x, .ok ())
      | .error er => (d, .error er)
  | _, some f, some e => match a with
    | .el x => if f.isInstance x then (dictPut d k x, .ok ())
      else ((setChild d k f e a).1, (setChild d k f e a).2.map fun _ => ())
    | .val _ => ((setChild d k f e a).1, (setChild d k f e a).2.map fun _ => ())

/-- `del m[key]`: Mapping (containers.py:758-762), SparseDict (containers.py:1167-1190) -/
def mapDelItem (c : MapClass K V E) (d : PyDict K E) (k : K) : PyDict K E × Except PyErr Unit :=
  match c.mode with
  | .full => match dictGet d k with
    | .none => (d, .error .key)
    | some _ => (d, .error .type)
  | .sparse => match dictGet d k with
    | some _ => (dictDel d k, .ok ())
    | .none => match fieldFor c k with
      | .none => (d, .error .type)
      | some _ => (d, .error .key)
  | .required => match dictGet d k, fieldFor c k with
    | some e, some f => if f.optionalOf e then (dictDel d k, .ok ()) else (d, .error .type)
    | some _, .none => (d, .error .type)
    | .none, .none => (d, .error .type)
    | .none, some f => if f.optional then (d, .error .key) else (d, .error .type)

/-- `m.clear()`: Mapping (containers.py:768-769), SparseDict (containers.py:1192-1193) -/
def mapClear (c : MapClass K V E) (d : PyDict K E) : PyDict K E × Except PyErr Unit :=
  match c.mode with
  | .full => (d, .error .type)
  | _ => (mapReset c d, .ok ())

/-- `m.popitem()`: containers.py:778-779, 1195-1196 -/
def mapPopitem (c : MapClass K V E) (d : PyDict K E) : PyDict K E × Except PyErr Unit :=
  match c.mode with
  | .full => (d, .error .type)
  | _ => (d, .error .notImplemented)

/-- `m.pop(key)`: Mapping (containers.py:781-784), SparseDict (containers.py:1198-1204) -/
def mapPop (c : MapClass K V E) (d : PyDict K E) (k : K) : PyDict K E × Except PyErr E :=
  match dictGet d k with
  | .none => (d, .error .key)
  | some e => match c.mode with
    | .full => (d, .error .type)
    | .sparse => (dictDel d k, .ok e)
    | .required => match fieldFor c k with
      | some f => if f.optionalOf e then (dictDel d k, .ok e) else (d, .error .type)
      | .none => (d, .error .type)

/-- the loop of `update` (containers.py:786-795) -/
def updateLoop (c : MapClass K V E) : PyDict K E → List (K × Arg V E) → PyDict K E × Except PyErr Unit
  | d, [] => (d, .ok ())
  | d, (k, a) :: rest => match mapSetItem c d k a with
    | (d', .ok ()) => updateLoop c d' rest
    | (d', .error er) => (d', .error er)

/-- `m.update(dictish, **kwargs)` [schema/containers.py:786-795] -/
def mapUpdate (c : MapClass K V E) (d : PyDict K E) (p : Pairs K V E) (kwargs : List (K × Arg V E)) : PyDict K E × Except PyErr Unit :=
  match p with
  | .refused er => (d, .error er)
  | .seq items fails => match updateLoop c d items with
    | (d', .error er) => (d', .error er)
    | (d', .ok ()) => match fails with
      | some er => (d', .error er)
      | .none => updateLoop c d' kwargs

/-- `m.setdefault(key, default)`: Mapping (containers.py:797-799), SparseDict (containers.py:1206-1218) -/
def mapSetdefault (c : MapClass K V E) (d : PyDict K E) (k : K) (dflt : Arg V E) : PyDict K E × Except PyErr Unit :=
  match c.mode with
  | .full => (d, .error .type)
  | _ => match fieldFor c k with
    | .none => (d, .error .type)
    | some f => match dictGet d k with
      | some e => if f.isEmpty e then ((setChild d k f e dflt).1, (setChild d k f e dflt).2.map fun _ => ()) else (d, .ok ())
      | .none => ((setChild d k f f.cls.blank dflt).1, (setChild d k f f.cls.blank dflt).2.map fun _ => ())

/-- The loop of `Dict.set` (containers.py:991-1003); `seen` and `converted` are accumulated. -/
def setLoop (c : MapClass K V E) (pol : MapPolicy) : PyDict K E → List K → Bool → List (K × Arg V E) →
    PyDict K E × Except PyErr (List K × Bool)
  | d, seen, conv, [] => (d, .ok (seen, conv))
  | d, seen, conv, (k, a) :: rest => match fieldFor c k with
    | .none => if pol = .duck then setLoop c pol d seen conv rest else (d, .error .key)
    | some f =>
      let e := (dictGet d k).getD f.cls.blank
      match setChild d k f e a with
      | (d', .error er) => (d', .error er)
      | (d', .ok b) => setLoop c pol d' (k :: seen) (conv && b) rest

/-- `m.set(value, policy)` (containers.py:978-1014); `pol` is the effective policy -/
def mapSet (c : MapClass K V E) (d : PyDict K E) (p : Pairs K V E) (pol : MapPolicy) : PyDict K E × Except PyErr Bool :=
  match p with
  | .refused er => (d, .error er)
  | .seq items fails => match setLoop c pol (mapReset c d) [] true items with
    | (d', .error er) => (d', .error er)
    | (d', .ok (seen, conv)) => match fails with
      | some er => (d', .error er)
      | .none =>
        if pol = .strict ∧ ¬ (c.fields.all fun f => seen.contains f.name) then (d', .error .type)
        else (d', .ok conv)

/-- What `set_flat` does to one field: nothing when no pair concerns it, an exception while looking for such pairs, or an effect
on the child. [schema/containers.py:855-866] -/
inductive FlatEffect (E : Type)
  | skip
  | raises (er : PyErr)
  | apply (g : E → E × Except PyErr Unit)

/-- the loop of `_set_flat` over the fields (containers.py:855-866), creating a field that is not there -/
def flatLoop (eff : K → FlatEffect E) : List (Field K V E) → PyDict K E → PyDict K E × Except PyErr Unit
  | [], d => (d, .ok ())
  | f :: fs, d => match eff f.name with
    | .skip => flatLoop eff fs d
    | .raises er => (d, .error er)
    | .apply g => match g ((dictGet d f.name).getD f.cls.blank) with
      | (e', .ok ()) => flatLoop eff fs (dictPut d f.name e')
      | (e', .error er) => (dictPut d f.name e', .error er)

/-- `m.set_flat(pairs)` [schema/containers.py:837-866] -/
def mapSetFlat (c : MapClass K V E) (d : PyDict K E) (eff : K → FlatEffect E) : PyDict K E × Except PyErr Unit :=
  flatLoop eff c.fields d

/-- `for child in self.children: child.set_default()` (containers.py:873-874) -/
def defaultChildren (c : MapClass K V E) : PyDict K E → PyDict K E × Except PyErr Unit
  | [] => ([], .ok ())
  | (k, e) :: rest => match fieldFor c k with
    | .none => ((k, e) :: rest, .error .attribute)
    | some f => match f.setDefault e with
      | (e', .error er) => ((k, e') :: rest, .error er)
      | (e', .ok ()) => ((k, e') :: (defaultChildren c rest).1, (defaultChildren c rest).2)

/-- the required fields of `SparseDict.set_default` (containers.py:1235-1238): `self[name] = schema.from_defaults()` -/
def defaultRequired : List (Field K V E) → PyDict K E → PyDict K E × Except PyErr Unit
  | [], d => (d, .ok ())
  | f :: fs, d => if f.optional then defaultRequired fs d
    else match f.fromDefaults with
      | .error er => (d, .error er)
      | .ok e => defaultRequired fs (dictPut d f.name e)

/-- `m.set_default()`: Mapping (containers.py:868-874), SparseDict (containers.py:1226-1240) -/
def mapSetDefault (c : MapClass K V E) (d : PyDict K E) : PyDict K E × Except PyErr Unit :=
  match c.default with
  | some p => ((mapSet c d p c.policy).1, (mapSet c d p c.policy).2.map fun _ => ())
  | .none => match c.mode with
    | .full => defaultChildren c d
    | .sparse => (mapReset c d, .ok ())
    | .required => defaultRequired c.fields (mapReset c d)

/-- a public operation [schema/containers.py:752-866, 978-1014, 1141-1240] -/
inductive MapOp (K V E : Type)
  | setItem (k : K) (a : Arg V E)
  | delItem (k : K)
  | clear
  | popitem
  | pop (k : K)
  | update (p : Pairs K V E) (kwargs : List (K × Arg V E))
  | setdefault (k : K) (a : Arg V E)
  | set (p : Pairs K V E) (pol : MapPolicy)
  | setFlat (eff : K → FlatEffect E)
  | setDefault

/-- the state after an operation, successful or not [schema/containers.py:752-866, 978-1014, 1141-1240] -/
def mapStep (c : MapClass K V E) (d : PyDict K E) : MapOp K V E → PyDict K E
  | .setItem k a => (mapSetItem c d k a).1
  | .delItem k => (mapDelItem c d k).1
  | .clear => (mapClear c d).1
  | .popitem => (mapPopitem c d).1
  | .pop k => (mapPop c d k).1
  | .update p kw => (mapUpdate c d p kw).1
  | .setdefault k a => (mapSetdefault c d k a).1
  | .set p pol => (mapSet c d p pol).1
  | .setFlat eff => (mapSetFlat c d eff).1
  | .setDefault => (mapSetDefault c d).1

/-- a new mapping without a value (containers.py:743-750) -/
def mapNew (c : MapClass K V E) : PyDict K E := mapReset c []

/-! ### selecting keys, util/base.py:252-299 -/

/-- The arguments of `keyslice_pairs`; an empty collection is the same as None (util/base.py:275-280 test truth values).
`rename` is already a dict (`dict(to_pairs(rename))`). -/
structure Selection (K : Type) where
  included : List K := []
  omitted : List K := []
  rename : PyDict K K := []
  key : Option (K → K) := none

/-- the loop of `keyslice_pairs` (util/base.py:284-299) -/
def keysliceLoop {A} (s : Selection K) : List (K × A) → List (K × A)
  | [] => []
  | (k0, v) :: rest =>
    let k := match s.key with
      | some f => f k0
      | .none => k0
    match dictGet s.rename k with
    | some k' => (k', v) :: keysliceLoop s rest
    | .none =>
      if !s.included.isEmpty then
        if s.included.contains k then (k, v) :: keysliceLoop s rest else keysliceLoop s rest
      else if !s.omitted.isEmpty then
        if s.omitted.contains k then keysliceLoop s rest else (k, v) :: keysliceLoop s rest
      else (k, v) :: keysliceLoop s rest

/-- `keyslice_pairs(pairs, include, omit, rename, key)` [util/base.py:278-299] -/
def keyslice {A} (s : Selection K) (pairs : List (K × A)) : Except PyErr (List (K × A)) :=
  if !s.included.isEmpty && !s.omitted.isEmpty then .error .type else .ok (keysliceLoop s pairs)

/-- `Dict.slice` (containers.py:1109-1114): `valueOf` is `element.value` -/
def mapSlice {A} (valueOf : E → A) (d : PyDict K E) (s : Selection K) : Except PyErr (PyDict K A) :=
  match keyslice s (d.map fun p => (p.1, valueOf p.2)) with
  | .error er => .error er
  | .ok ps => .ok (dictOf ps)

/-- an object: its attributes [Python attributes; used at schema/containers.py:1083-1085] -/
abbrev PyObj (K A : Type) := K → Option A

/-- `setattr` for every item [schema/containers.py:1106-1107] -/
def setAttrs {A} (o : PyObj K A) : List (K × A) → PyObj K A
  | [] => o
  | (k, a) :: rest => setAttrs (fun k' => if k' = k then some a else o k') rest

/-- `Dict.update_object` (containers.py:1094-1107) -/
def mapUpdateObject {A} (valueOf : E → A) (d : PyDict K E) (o : PyObj K A) (s : Selection K) : Except PyErr (PyObj K A) :=
  match mapSlice valueOf d s with
  | .error er => .error er
  | .ok data => .ok (setAttrs o data)

/-- The attribute names `set_by_object` looks at (containers.py:1070-1079): fields, sources of renames into them – the set grows
while the generator runs –, minus the omitted ones. -/
def objectAttrs (fields : List K) (renames : List (K × K)) (omitted : List K) : List K :=
  (renames.foldl (fun attrs p => if attrs.contains p.2 then attrs ++ [p.1] else attrs) fields).filter fun a => !omitted.contains a

/-- The pairs handed to `set` by `set_by_object` (containers.py:1081-1092), for one iteration order `order` of the attribute set. -/
def objectPairs {A} (fields : List K) (o : PyObj K A) (s : Selection K) (order : List K) : Except PyErr (PyDict K A) :=
  match keyslice { s with key := none } (order.filterMap fun a => (o a).map fun v => (a, v)) with
  | .error er => .error er
  | .ok ps => .ok (dictOf (ps.filter fun p => fields.contains p.1))

end Flatland
