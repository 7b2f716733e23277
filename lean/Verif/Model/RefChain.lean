import Verif.Model.Refs
/-
Model of flatland/schema/scalars.py: a Ref whose target is a Ref, and so on; the last one's target is a plain scalar.

Simplified: every `target_path` is found; the Refs' own `raw` is left out.
-/
namespace Flatland

/-- The scalar elements of the form and their classes; a Ref is known by the `writable` of it and of the Refs behind it, the outermost first,
and the number of the scalar at the end. [schema/scalars.py:558-585] -/
structure ChainForm where
  types : Nat → ScalarType
  cells : Nat → ScalarState

/-- `el.value = v` for the scalar itself, else `Ref._set_value`, flatland/schema/scalars.py:605-611. -/
def chainSetValue (f : ChainForm) (n : Nat) (v : PyVal) : List Writable → ChainForm × Except PyErr Unit
  | [] => ({ f with cells := fun k => if k = n then { f.cells n with value := v } else f.cells k }, .ok ())
  | .ignore :: _ => (f, .ok ())
  | .no :: _ => (f, .error .type)
  | .yes :: behind => chainSetValue f n v behind

/-- `el.u = u` for the scalar itself, else `Ref._set_u`, flatland/schema/scalars.py:591-597. -/
def chainSetU (f : ChainForm) (n : Nat) (u : PStr) : List Writable → ChainForm × Except PyErr Unit
  | [] => ({ f with cells := fun k => if k = n then { f.cells n with u := u } else f.cells k }, .ok ())
  | .ignore :: _ => (f, .ok ())
  | .no :: _ => (f, .error .type)
  | .yes :: behind => chainSetU f n u behind

/-- `Ref.adapt`: that of the target, flatland/schema/scalars.py:576-577. -/
def chainAdapt (f : ChainForm) (n : Nat) (v : PyVal) : List Writable → Except PyErr PyVal
  | [] => (f.types n).adapt v
  | _ :: behind => chainAdapt f n v behind

/-- `Ref.serialize`: that of the target, flatland/schema/scalars.py:579-580. -/
def chainSerialize (f : ChainForm) (n : Nat) (v : PyVal) : List Writable → Except PyErr PStr
  | [] => (f.types n).serialize v
  | _ :: behind => chainSerialize f n v behind

/-- `Ref._get_value` and `Ref._get_u`, flatland/schema/scalars.py:587-589, 601-603: both as a pair. -/
def chainRead (f : ChainForm) (n : Nat) : List Writable → PyVal × PStr
  | [] => ((f.cells n).value, (f.cells n).u)
  | _ :: behind => chainRead f n behind

/-- a statement followed by the rest of the body [Python statements; used at schema/scalars.py:71-94] -/
def chainThen {α : Type} (r : ChainForm × Except PyErr Unit) (k : ChainForm → ChainForm × Except PyErr α) : ChainForm × Except PyErr α :=
  match r with
  | (f, .ok _) => k f
  | (f, .error e) => (f, .error e)

/-- `Scalar.set` as the Ref at the front runs it, flatland/schema/scalars.py:71-94. -/
def chainSet [Runtime] (f : ChainForm) (n : Nat) (ws : List Writable) (v : PyVal) : ChainForm × Except PyErr Bool :=
  match chainAdapt f n v ws with
  | .error .adaptation =>
    chainThen (chainSetValue f n .none ws) fun f =>
    chainThen (chainSetU f n (match v with | .none => [] | .str s => s | x => pyText x) ws) fun f => (f, .ok false)
  | .error e => (f, .error e)
  | .ok x =>
    chainThen (chainSetValue f n x ws) fun f =>
      match x with
      | .none => chainThen (chainSetU f n [] ws) fun f => (f, .ok true)
      | x =>
        match chainSerialize f n x ws with
        | .error e => (f, .error e)
        | .ok u => chainThen (chainSetU f n u ws) fun f => (f, .ok true)

end Flatland
