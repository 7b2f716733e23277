import Verif.Model.Scalars
/-
Model of flatland/schema/scalars.py: Ref.
-/
namespace Flatland

/-- the values of `Ref.writable`: 'ignore', true, false.  flatland/schema/scalars.py:562, 590-594. -/
inductive Writable where
  | ignore | yes | no
  deriving DecidableEq, Repr

/-- A form holding one Ref and any number of scalar elements, which are known by number.
`here` is the element that `root.el(target_path)` finds now (`none`: it raises LookupError); `cached` is what `target` has stored in the
Ref's `__dict__` (flatland/util/base.py:37-42); `refRaw` is the Ref's own `raw`.
Simplified: the target is a plain scalar (neither another Ref nor a container). -/
structure RefWorld where
  types : Nat → ScalarType
  cells : Nat → ScalarState
  here : Option Nat
  cached : Option Nat
  refRaw : Option PyVal

/-- `Ref.target`, flatland/schema/scalars.py:583-585, a `lazy_property` (flatland/util/base.py:37-42): looked up once and then remembered. -/
def refTarget (w : RefWorld) : RefWorld × Except PyErr Nat :=
  match w.cached with
  | some n => (w, .ok n)
  | .none => match w.here with
    | some n => ({ w with cached := some n }, .ok n)
    | .none => (w, .error .lookup)

/-- `Ref._get_value`, `Ref._get_u`, flatland/schema/scalars.py:587-589, 601-603: both as a pair. -/
def refRead (w : RefWorld) : RefWorld × Except PyErr (PyVal × PStr) :=
  match refTarget w with
  | (w', .ok n) => (w', .ok ((w'.cells n).value, (w'.cells n).u))
  | (w', .error e) => (w', .error e)

/-- writing one cell [schema/scalars.py:593-614] -/
def RefWorld.put (w : RefWorld) (n : Nat) (st : ScalarState) : RefWorld :=
  { w with cells := fun k => if k = n then st else w.cells k }

/-- `Ref._set_value`, flatland/schema/scalars.py:605-611. -/
def refSetValue (wr : Writable) (w : RefWorld) (v : PyVal) : RefWorld × Except PyErr Unit :=
  match wr with
  | .ignore => (w, .ok ())
  | .no => (w, .error .type)
  | .yes => match refTarget w with
    | (w', .ok n) => (w'.put n { w'.cells n with value := v }, .ok ())
    | (w', .error e) => (w', .error e)

/-- `Ref._set_u`, flatland/schema/scalars.py:591-597. -/
def refSetU (wr : Writable) (w : RefWorld) (u : PStr) : RefWorld × Except PyErr Unit :=
  match wr with
  | .ignore => (w, .ok ())
  | .no => (w, .error .type)
  | .yes => match refTarget w with
    | (w', .ok n) => (w'.put n { w'.cells n with u := u }, .ok ())
    | (w', .error e) => (w', .error e)

/-- a statement followed by the rest of the body [Python statements; used at schema/scalars.py:71-94] -/
def refThen {α β : Type} (r : RefWorld × Except PyErr α) (f : RefWorld → α → RefWorld × Except PyErr β) : RefWorld × Except PyErr β :=
  match r with
  | (w, .ok a) => f w a
  | (w, .error e) => (w, .error e)

/-- `Scalar.set` as a Ref runs it, flatland/schema/scalars.py:71-94, with `Ref.adapt`, `Ref.serialize` (576-580) and the two
properties above. -/
def refSet [Runtime] (wr : Writable) (w : RefWorld) (v : PyVal) : RefWorld × Except PyErr Bool :=
  let w := { w with refRaw := some v }
  refThen (refTarget w) fun w n =>
    match (w.types n).adapt v with
    | .error .adaptation =>
      refThen (refSetValue wr w .none) fun w _ =>
      refThen (refSetU wr w (match v with | .none => [] | .str s => s | x => pyText x)) fun w _ =>
        (w, .ok false)
    | .error e => (w, .error e)
    | .ok x =>
      refThen (refSetValue wr w x) fun w _ =>
        match x with
        | .none => refThen (refSetU wr w []) fun w _ => (w, .ok true)
        | x =>
          refThen (refTarget w) fun w n =>
          match (w.types n).serialize x with
          | .error e => (w, .error e)
          | .ok u => refThen (refSetU wr w u) fun w _ => (w, .ok true)

/-- `set_flat` on a Ref: Element.set_flat (base.py:750-754) and Scalar._set_flat; what `set` returns is not looked at [schema/base.py:743-754, schema/scalars.py:123-127] -/
def refSetFlat [Runtime] (wr : Writable) (name : PStr) (w : RefWorld) (pairs : List (PStr × PStr)) : RefWorld × Except PyErr Unit :=
  let w := { w with refRaw := .none }
  match pairs.find? fun p => p.1 = name with
  | .none => (w, .ok ())
  | some p => refThen (refSet wr w (.str p.2)) fun w _ => (w, .ok ())

end Flatland
