import Verif.Model.Mappings
/-
Model of flatland/schema/properties.py: properties of classes and of their instances.

Classes `C`, `Properties` objects `D` and instances `I` are identities; keys `K` and values `V` are arbitrary.
Simplifications: the classes, their method resolution orders and their `properties` members are fixed in advance (a class made later
is one that has not been used before); the frame of a class whose own member is the `Properties` object is that object's
`initial_set`, whether or not it has been entered in the map already (properties.py:137-158: entering it makes no
difference); instances have a `__dict__`; the values written are not the `Deleted` symbol.
-/
namespace Flatland

variable {C D I K V : Type} [DecidableEq C] [DecidableEq D] [DecidableEq I] [DecidableEq K]

/-- the classes: `__mro__`, `cls.__dict__.get('properties')`, what the `Properties` objects were made with (properties.py:238-241)
and the classes of the instances -/
structure PropWorld (C D I K V : Type) where
  mro : C → List C
  member : C → Option D
  initial : D → List (K × V)
  classOf : I → C

/-- a frame: `none` stands for `Deleted` [schema/properties.py:7, 101] -/
abbrev PropFrame (K V : Type) := PyDict K (Option V)

/-- `instance.__dict__['properties']`: a `local_storage`, or whatever dict was assigned (properties.py:161-162, 170, 247-259) -/
inductive LocalProps (K V : Type)
  | overlay (f : PropFrame K V)
  | replaced (d : PyDict K V)

/-- the `initial_set` and the `map` of each `Properties` object, and the instances' own storage [schema/properties.py:238-241, 170] -/
structure PropState (C D I K V : Type) where
  init : D → PropFrame K V
  map : D → C → Option (PropFrame K V)
  locals : I → LocalProps K V

/-- the state before anything is done [schema/properties.py:238-241] -/
def propStart (w : PropWorld C D I K V) : PropState C D I K V where
  init d := dictOf ((w.initial d).map fun p => (p.1, some p.2))
  map _ _ := .none
  locals _ := .overlay []

/-- `d.update(other)` [Python dict; used at schema/properties.py:123, 216] -/
def dictUpdate {E : Type} (d : PyDict K E) (other : PyDict K E) : PyDict K E := other.foldl (fun d p => dictPut d p.1 p.2) d

/-- the attribute lookup `cls.properties`: the first member along the MRO [Python attribute lookup; used at schema/properties.py:243] -/
def descriptorOf (w : PropWorld C D I K V) (c : C) : Option D := (w.mro c).findSome? w.member

/-! ### `_TypeLookup`, properties.py:76-158 -/

/-- `_frames()` (properties.py:137-146) -/
def typeFrames (w : PropWorld C D I K V) (s : PropState C D I K V) (d : D) : List C → List (PropFrame K V)
  | [] => []
  | c :: cs => if w.member c = some d then [s.init d]
    else match s.map d c with
      | .none => typeFrames w s d cs
      | some f => f :: typeFrames w s d cs

/-- `self[key]` (properties.py:84-94); `none` is KeyError -/
def frameGet (k : K) : List (PropFrame K V) → Option V
  | [] => .none
  | f :: fs => match dictGet f k with
    | some v => v
    | .none => frameGet k fs

/-- `_base_frame` (properties.py:148-158) -/
def baseFrame (w : PropWorld C D I K V) (s : PropState C D I K V) (d : D) (c : C) : PropFrame K V :=
  if w.member c = some d then s.init d else (s.map d c).getD []

/-- the state after the base frame was changed to `f` [schema/properties.py:148-158] -/
def putBase (w : PropWorld C D I K V) (s : PropState C D I K V) (d : D) (c : C) (f : PropFrame K V) : PropState C D I K V :=
  if w.member c = some d then { s with init := fun d' => if d' = d then f else s.init d' }
  else { s with map := fun d' c' => if d' = d ∧ c' = c then some f else s.map d' c' }

/-- the inner loop of `iteritems` (properties.py:128-132): what is yielded, and the keys seen -/
def itemsIn : List K → PropFrame K V → List (K × V) × List K
  | seen, [] => ([], seen)
  | seen, (k, v) :: rest =>
    if k ∈ seen then itemsIn seen rest
    else ((v.map fun x => (k, x)).toList ++ (itemsIn (k :: seen) rest).1, (itemsIn (k :: seen) rest).2)

/-- `items()` (properties.py:125-132) -/
def frameItems : List K → List (PropFrame K V) → List (K × V)
  | _, [] => []
  | seen, f :: fs => (itemsIn seen f).1 ++ frameItems (itemsIn seen f).2 fs

/-- `cls.properties[key]` [schema/properties.py:84-94] -/
def typeGet (w : PropWorld C D I K V) (s : PropState C D I K V) (d : D) (c : C) (k : K) : Option V := frameGet k (typeFrames w s d (w.mro c))

/-- `cls.properties.items()` [schema/properties.py:125-132] -/
def typeItems (w : PropWorld C D I K V) (s : PropState C D I K V) (d : D) (c : C) : List (K × V) := frameItems [] (typeFrames w s d (w.mro c))

/-- operations on a lookup [schema/properties.py:47-51, 84-135, 179-232] -/
inductive PropOp (K V : Type)
  | get (k : K)
  | set (k : K) (v : V)
  | del (k : K)
  | clear
  | pop (k : K) (default : Option V)
  | setdefault (k : K) (v : V)
  | update (pairs : List (K × V))

/-- what an operation returns or raises; `value none` is the `Deleted` symbol [schema/properties.py:47-51, 84-135, 179-232] -/
inductive PropRes (V : Type)
  | value (v : Option V)
  | done
  | keyError
  | attributeError
  deriving DecidableEq

/-- `pop` of a class lookup (properties.py:108-116) -/
def typePop (w : PropWorld C D I K V) (s : PropState C D I K V) (d : D) (c : C) (k : K) (default : Option V) : PropState C D I K V × PropRes V :=
  match typeGet w s d c k with
  | .none => (s, match default with | .none => .keyError | some v => .value (some v))
  | some v => (putBase w s d c (dictPut (baseFrame w s d c) k .none), .value (some v))

/-- an operation on `cls.properties` (properties.py:84-123) -/
def typeOp (w : PropWorld C D I K V) (s : PropState C D I K V) (d : D) (c : C) : PropOp K V → PropState C D I K V × PropRes V
  | .get k => (s, match typeGet w s d c k with | .none => .keyError | some v => .value (some v))
  | .set k v => (putBase w s d c (dictPut (baseFrame w s d c) k (some v)), .done)
  | .del k => match typeGet w s d c k with
    | .none => (s, .keyError)
    | some _ => (putBase w s d c (dictPut (baseFrame w s d c) k .none), .done)
  | .clear => (putBase w s d c (((typeItems w s d c).map Prod.fst).foldl (fun f k => dictPut f k .none) (baseFrame w s d c)), .done)
  | .pop k default => typePop w s d c k default
  | .setdefault k v => match dictGet (baseFrame w s d c) k with
    | some x => (s, .value x)
    | .none => (putBase w s d c (dictPut (baseFrame w s d c) k (some v)), .value (some v))
  | .update pairs => (putBase w s d c (dictUpdate (baseFrame w s d c) ((dictOf pairs).map fun p => (p.1, some p.2))), .done)

/-! ### `_InstanceLookup`, properties.py:165-232 -/

/-- the state after the instance's storage was changed to `l` [schema/properties.py:170] -/
def putLocal (s : PropState C D I K V) (i : I) (l : LocalProps K V) : PropState C D I K V :=
  { s with locals := fun j => if j = i then l else s.locals j }

/-- `self[key]` (properties.py:179-188) -/
def overlayGet (w : PropWorld C D I K V) (s : PropState C D I K V) (d : D) (c : C) (f : PropFrame K V) (k : K) : Option V :=
  match dictGet f k with
  | some v => v
  | .none => typeGet w s d c k

/-- `items()` (properties.py:218-228) -/
def overlayItems (w : PropWorld C D I K V) (s : PropState C D I K V) (d : D) (c : C) (f : PropFrame K V) : List (K × V) :=
  f.filterMap (fun p => p.2.map fun v => (p.1, v)) ++ (typeItems w s d c).filter fun p => p.1 ∉ dictKeys f

/-- an operation on `instance.properties` while it is an overlay (properties.py:179-216) -/
def overlayOp (w : PropWorld C D I K V) (s : PropState C D I K V) (d : D) (i : I) (f : PropFrame K V) : PropOp K V → PropState C D I K V × PropRes V
  | .get k => (s, match overlayGet w s d (w.classOf i) f k with | .none => .keyError | some v => .value (some v))
  | .set k v => (putLocal s i (.overlay (dictPut f k (some v))), .done)
  | .del k => match overlayGet w s d (w.classOf i) f k with
    | .none => (s, .keyError)
    | some _ => (putLocal s i (.overlay (dictPut f k .none)), .done)
  | .clear => (putLocal s i (.overlay (((typeItems w s d (w.classOf i)).map Prod.fst).foldl (fun f k => dictPut f k .none) [])), .done)
  | .pop k default => match dictGet f k with
    | some v => (putLocal s i (.overlay (dictDel f k)), .value v)
    | .none => typePop w s d (w.classOf i) k default
  | .setdefault k v => match overlayGet w s d (w.classOf i) f k with
    | some x => (s, .value (some x))
    | .none => match dictGet f k with
      | some x => (s, .value x)
      | .none => (putLocal s i (.overlay (dictPut f k (some v))), .value (some v))
  | .update pairs => (putLocal s i (.overlay (dictUpdate f ((dictOf pairs).map fun p => (p.1, some p.2)))), .done)

/-- the same operation on a plain dict [Python dict; reached through schema/properties.py:254-255] -/
def plainOp (s : PropState C D I K V) (i : I) (e : PyDict K V) : PropOp K V → PropState C D I K V × PropRes V
  | .get k => (s, match dictGet e k with | .none => .keyError | some v => .value (some v))
  | .set k v => (putLocal s i (.replaced (dictPut e k v)), .done)
  | .del k => match dictGet e k with
    | .none => (s, .keyError)
    | some _ => (putLocal s i (.replaced (dictDel e k)), .done)
  | .clear => (putLocal s i (.replaced []), .done)
  | .pop k default => match dictGet e k with
    | some v => (putLocal s i (.replaced (dictDel e k)), .value (some v))
    | .none => (s, match default with | .none => .keyError | some v => .value (some v))
  | .setdefault k v => match dictGet e k with
    | some x => (s, .value (some x))
    | .none => (putLocal s i (.replaced (dictPut e k v)), .value (some v))
  | .update pairs => (putLocal s i (.replaced (dictUpdate e (dictOf pairs))), .done)

/-- an operation on `instance.properties` (`Properties.__get__`, properties.py:243-256) -/
def instanceOp (w : PropWorld C D I K V) (s : PropState C D I K V) (d : D) (i : I) (op : PropOp K V) : PropState C D I K V × PropRes V :=
  match s.locals i with
  | .replaced e => plainOp s i e op
  | .overlay f => overlayOp w s d i f op

/-! ### programs -/

/-- one step of a program: an operation on `cls.properties` or on `instance.properties`, or `instance.properties = {...}` (a new
dict) [schema/properties.py:243-259] -/
inductive PropStep (C I K V : Type)
  | cls (c : C) (op : PropOp K V)
  | inst (i : I) (op : PropOp K V)
  | assign (i : I) (pairs : List (K × V))

/-- a step: the new state and the result [schema/properties.py:243-259] -/
def propStep (w : PropWorld C D I K V) (s : PropState C D I K V) : PropStep C I K V → PropState C D I K V × PropRes V
  | .cls c op => match descriptorOf w c with
    | .none => (s, .attributeError)
    | some d => typeOp w s d c op
  | .inst i op => match descriptorOf w (w.classOf i) with
    | .none => (s, .attributeError)
    | some d => instanceOp w s d i op
  | .assign i pairs => (putLocal s i (.replaced (dictOf pairs)), .done)

/-- a program: the state it ends in and all results [schema/properties.py:243-259, client code] -/
def propRun (w : PropWorld C D I K V) : PropState C D I K V → List (PropStep C I K V) → PropState C D I K V × List (PropRes V)
  | s, [] => (s, [])
  | s, p :: ps => ((propRun w (propStep w s p).1 ps).1, (propStep w s p).2 :: (propRun w (propStep w s p).1 ps).2)

/-- `cls.properties` or `instance.properties` [schema/properties.py:243-256] -/
inductive PropTarget (C I : Type)
  | cls (c : C)
  | inst (i : I)

/-- `target.properties[key]`; `none` is an exception [schema/properties.py:84-94, 179-188] -/
def propGet (w : PropWorld C D I K V) (s : PropState C D I K V) (t : PropTarget C I) (k : K) : Option V :=
  match t with
  | .cls c => match descriptorOf w c with
    | .none => .none
    | some d => typeGet w s d c k
  | .inst i => match descriptorOf w (w.classOf i) with
    | .none => .none
    | some d => match s.locals i with
      | .replaced e => dictGet e k
      | .overlay f => overlayGet w s d (w.classOf i) f k

/-- `target.properties.items()` [schema/properties.py:125-132, 218-228] -/
def propItems (w : PropWorld C D I K V) (s : PropState C D I K V) (t : PropTarget C I) : List (K × V) :=
  match t with
  | .cls c => match descriptorOf w c with
    | .none => []
    | some d => typeItems w s d c
  | .inst i => match descriptorOf w (w.classOf i) with
    | .none => []
    | some d => match s.locals i with
      | .replaced e => e
      | .overlay f => overlayItems w s d (w.classOf i) f

/-- `target.properties.keys()` (properties.py:18-19) -/
def propKeys (w : PropWorld C D I K V) (s : PropState C D I K V) (t : PropTarget C I) : List K := (propItems w s t).map Prod.fst

/-- `target.properties.values()` (properties.py:23-24) -/
def propValues (w : PropWorld C D I K V) (s : PropState C D I K V) (t : PropTarget C I) : List V := (propItems w s t).map Prod.snd

/-- `key in target.properties` (properties.py:59-60) -/
def propHas (w : PropWorld C D I K V) (s : PropState C D I K V) (t : PropTarget C I) (k : K) : Bool := decide (k ∈ propKeys w s t)

/-- `target.properties.copy()` (properties.py:53-54) -/
def propCopy (w : PropWorld C D I K V) (s : PropState C D I K V) (t : PropTarget C I) : PyDict K V := dictOf (propItems w s t)

/-- `bool(target.properties)` (properties.py:62-64) -/
def propBool (w : PropWorld C D I K V) (s : PropState C D I K V) (t : PropTarget C I) : Bool := !(propCopy w s t).isEmpty

/-- Python's `==` of dicts: as many keys, and each with an equal value -/
def dictEqBy {E : Type} (eq : E → E → Bool) (a b : PyDict K E) : Bool :=
  a.length == b.length && a.all fun p => match dictGet b p.1 with
    | some v => eq p.2 v
    | .none => false

/-- `target.properties == other`, `other` a dict [schema/properties.py:66-67] -/
def propEqDict (eq : V → V → Bool) (w : PropWorld C D I K V) (s : PropState C D I K V) (t : PropTarget C I) (other : PyDict K V) : Bool :=
  dictEqBy eq (propCopy w s t) other

/-- `target.properties != other`, `other` a dict [schema/properties.py:69-70] -/
def propNeDict (eq : V → V → Bool) (w : PropWorld C D I K V) (s : PropState C D I K V) (t : PropTarget C I) (other : PyDict K V) : Bool :=
  !dictEqBy eq (propCopy w s t) other

/-- `target.properties == target'.properties`: a dict does not know how to compare itself with the other mapping, so that Python asks
that one: `other.copy() == self.copy()` [schema/properties.py:66-67] -/
def propEqProps (eq : V → V → Bool) (w : PropWorld C D I K V) (s : PropState C D I K V) (t t' : PropTarget C I) : Bool :=
  propEqDict eq w s t' (propCopy w s t)

end Flatland
