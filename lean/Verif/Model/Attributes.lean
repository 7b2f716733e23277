import Verif.Model.Mappings
/-! Attributes of elements and their classes: the descriptors of flatland/util/base.py:25-163 under Python's attribute lookup, and the keyword
arguments of `using` and `Element.__init__` (flatland/schema/base.py:130-150, 168-196).

Simplifications.  A class has one base, as those made by the schema constructors.  A descriptor sits in the class where all begins, under the name
of its function.  Its function neither raises nor changes anything.  `validators` and `properties` are not looked at (see C49). Metaclass attributes
are not considered. -/
namespace Flatland

/-- what a class `__dict__` has under a name: a value, or one of the descriptors [util/base.py:25-163] -/
inductive Slot
  | plain (v : PyVal)
  /-- `assignable_class_property` -/
  | computed
  /-- `assignable_property` -/
  | instComputed
  /-- `class_cloner` -/
  | cloner
  /-- `lazy_property` -/
  | lazy
  deriving DecidableEq

/-- a class: its base and its `__dict__` [Python classes, no code] -/
structure AClass where
  base : Option Nat
  dict : PyDict PStr Slot

/-- the classes, and the objects with their class and `__dict__`, in the order in which they were made [Python, no code] -/
structure AWorld where
  classes : List AClass
  objs : List (Nat × PyDict PStr PyVal)

/-- the functions of the descriptors, by name: on an object and on a class [util/base.py:34-35, 55-58, 97-100] -/
structure Getters where
  inst : PStr → AWorld → Nat → PyVal
  cls : PStr → AWorld → Nat → PyVal

/-- Python's `_PyType_Lookup`: the first `__dict__` among the class and its bases that has the name -/
def typeLookup (w : AWorld) (c : Nat) (k : PStr) : Option Slot :=
  match w.classes[c]? with
  | .none => .none
  | some cl => match dictGet cl.dict k with
    | some s => some s
    | .none => match cl.base with
      | .none => .none
      | some p => if _h : p < c then typeLookup w p k else .none
termination_by c

/-- an object's `__dict__` [Python, no code] -/
def AWorld.vars (w : AWorld) (i : Nat) : PyDict PStr PyVal := ((w.objs[i]?).map (·.2)).getD []

/-- an object's class [Python, no code] -/
def AWorld.typeOf (w : AWorld) (i : Nat) : Nat := ((w.objs[i]?).map (·.1)).getD 0

/-- `instance.__dict__[k] = v` [util/base.py:67-68, 107-108, 155-156] -/
def AWorld.put (w : AWorld) (i : Nat) (k : PStr) (v : PyVal) : AWorld :=
  { w with objs := w.objs.modify i fun o => (o.1, dictPut o.2 k v) }

/-- `del instance.__dict__[k]` [util/base.py:72, 112, 160] -/
def AWorld.drop (w : AWorld) (i : Nat) (k : PStr) : AWorld :=
  { w with objs := w.objs.modify i fun o => (o.1, dictDel o.2 k) }

/-- what an access gives: a value, a new class or object, nothing; a class has the descriptor itself of a lazy property, and a method for a cloner
[util/base.py:38-39, 139-152] -/
inductive AttrGot
  | val (v : PyVal)
  | made (n : Nat)
  | done
  | descriptor
  | method
  deriving DecidableEq

/-- `__get__` of a data descriptor on an object [util/base.py:62-65, 102-105, 137-142] -/
def dataGet (g : Getters) (w : AWorld) (i : Nat) (k : PStr) (isCloner : Bool) : Except PyErr PyVal :=
  match dictGet (w.vars i) k with
  | some v => .ok v
  | .none => if isCloner then .error .attribute else .ok (g.inst k w i)

/-- `getattr(object, k)`: a data descriptor of the class goes first, then the object's `__dict__`, then the class; `lazy_property.__get__` stores what
it computes [Python's `object.__getattribute__`; util/base.py:37-42, 59-65, 99-105, 136-142] -/
def getAttr (g : Getters) (w : AWorld) (i : Nat) (k : PStr) : AWorld × Except PyErr PyVal :=
  match typeLookup w (w.typeOf i) k with
  | some .computed => (w, dataGet g w i k false)
  | some .instComputed => (w, dataGet g w i k false)
  | some .cloner => (w, dataGet g w i k true)
  | other => match dictGet (w.vars i) k with
    | some v => (w, .ok v)
    | .none => match other with
      | some .lazy => (w.put i k (g.inst k w i), .ok (g.inst k w i))
      | some (.plain v) => (w, .ok v)
      | _ => (w, .error .attribute)

/-- `setattr(object, k, v)`: `__set__` of every data descriptor does what Python does without [util/base.py:67-68, 107-108, 154-156] -/
def setAttr (w : AWorld) (i : Nat) (k : PStr) (v : PyVal) : AWorld :=
  match typeLookup w (w.typeOf i) k with
  | some .computed => w.put i k v
  | some .instComputed => w.put i k v
  | some .cloner => w.put i k v
  | _ => w.put i k v

/-- `delattr(object, k)`: the same for `__delete__`; KeyError becomes AttributeError [util/base.py:70-75, 110-115, 158-163] -/
def delAttr (w : AWorld) (i : Nat) (k : PStr) : AWorld × Except PyErr Unit :=
  match dictGet (w.vars i) k with
  | some _ => (w.drop i k, .ok ())
  | .none => (w, .error .attribute)

/-- `getattr(cls, k)` [util/base.py:38-39, 60-62, 99-100, 143-152] -/
def getClassAttr (g : Getters) (w : AWorld) (c : Nat) (k : PStr) : Except PyErr AttrGot :=
  match typeLookup w c k with
  | some (.plain v) => .ok (.val v)
  | some .computed => .ok (.val (g.cls k w c))
  | some .instComputed => .ok (.val .none)
  | some .cloner => .ok .method
  | some .lazy => .ok .descriptor
  | .none => .error .attribute

/-- `setattr(cls, k, v)`: replaces whatever the class has [Python; util/base.py:91-92] -/
def setClassAttr (w : AWorld) (c : Nat) (k : PStr) (v : PyVal) : AWorld :=
  { w with classes := w.classes.modify c fun cl => { cl with dict := dictPut cl.dict k (.plain v) } }

/-- `hasattr` [Python; schema/base.py:143, 190] -/
def isOk {A : Type} : Except PyErr A → Bool
  | .ok _ => true
  | .error _ => false

/-- the loop of `using` over the overrides, on the new class [schema/base.py:186-196] -/
def usingLoop (g : Getters) (w : AWorld) (c : Nat) : List (PStr × PyVal) → Except PyErr AWorld
  | [] => .ok w
  | (k, v) :: r => if isOk (getClassAttr g w c k) then usingLoop g (setClassAttr w c k v) c r else .error .type

/-- the loop of `Element.__init__` over the keywords, on the new object [schema/base.py:142-150] -/
def initLoop (g : Getters) (w : AWorld) (i : Nat) : List (PStr × PyVal) → Except PyErr AWorld
  | [] => .ok w
  | (k, v) :: r => match getAttr g w i k with
    | (w', .ok _) => initLoop g (setAttr w' i k v) i r
    | (_, .error _) => .error .type

/-- what a program does [schema/base.py:130-150, 168-196; attribute access] -/
inductive AttrOp
  | subclass (c : Nat) (overrides : List (PStr × PyVal))
  | make (c : Nat) (keywords : List (PStr × PyVal))
  | get (i : Nat) (k : PStr)
  | set (i : Nat) (k : PStr) (v : PyVal)
  | del (i : Nat) (k : PStr)
  | getClass (c : Nat) (k : PStr)
  | setClass (c : Nat) (k : PStr) (v : PyVal)

/-- one of them; a class or object that could not be made is dropped.  Classes and objects that do not exist: LookupError, no code.
[schema/base.py:130-150, 168-196, util/base.py:25-163] -/
def attrStep (g : Getters) (w : AWorld) : AttrOp → AWorld × Except PyErr AttrGot
  | .subclass c overrides =>
    if c < w.classes.length then
      match usingLoop g { w with classes := w.classes ++ [⟨some c, []⟩] } w.classes.length overrides with
      | .ok w' => (w', .ok (.made w.classes.length))
      | .error e => (w, .error e)
    else (w, .error .lookup)
  | .make c keywords =>
    if c < w.classes.length then
      match initLoop g { w with objs := w.objs ++ [(c, [])] } w.objs.length keywords with
      | .ok w' => (w', .ok (.made w.objs.length))
      | .error e => (w, .error e)
    else (w, .error .lookup)
  | .get i k => if i < w.objs.length then ((getAttr g w i k).1, (getAttr g w i k).2.map .val) else (w, .error .lookup)
  | .set i k v => if i < w.objs.length then (setAttr w i k v, .ok .done) else (w, .error .lookup)
  | .del i k => if i < w.objs.length then ((delAttr w i k).1, (delAttr w i k).2.map fun _ => .done) else (w, .error .lookup)
  | .getClass c k => (w, if c < w.classes.length then getClassAttr g w c k else .error .lookup)
  | .setClass c k v => if c < w.classes.length then (setClassAttr w c k v, .ok .done) else (w, .error .lookup)

/-- a program: the world it leaves and what it saw, newest first [no code] -/
def attrRun (g : Getters) : AWorld → List (AttrOp × Except PyErr AttrGot) → List AttrOp → AWorld × List (AttrOp × Except PyErr AttrGot)
  | w, h, [] => (w, h)
  | w, h, op :: ops => attrRun g (attrStep g w op).1 ((op, (attrStep g w op).2) :: h) ops

/-- the start: one class, no objects [no code] -/
def attrStart (root : PyDict PStr Slot) : AWorld := ⟨[⟨.none, root⟩], []⟩

/-- `Element.label`: an assignable class property; its function returns `self.name` or `cls.name` [schema/base.py:355-362] -/
def labelGetters (name : PStr) : Getters where
  inst _ w i := match (getAttr ⟨fun _ _ _ => .none, fun _ _ _ => .none⟩ w i name).2 with
    | .ok v => v
    | .error _ => .none
  cls _ w c := match getClassAttr ⟨fun _ _ _ => .none, fun _ _ _ => .none⟩ w c name with
    | .ok (.val v) => v
    | _ => .none

end Flatland
