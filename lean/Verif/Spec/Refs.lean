import Verif.Model.Refs
/-
What may happen to a form with a Ref, for C53.
-/
namespace Flatland.Spec
open Flatland

/-- One step in the life of a form with a Ref. -/
inductive RefOp where
  | read                                 -- somebody reads the Ref
  | refSet (v : PyVal)                   -- `ref.set(v)`
  | refValue (v : PyVal)                 -- `ref.value = v`
  | refU (u : PStr)                      -- `ref.u = u`
  | set (n : Nat) (v : PyVal)            -- `element.set(v)` for any scalar element
  | assign (n : Nat) (st : ScalarState)  -- direct assignment to attributes of any scalar element
  | rebuild (n : Option Nat)             -- the whole form is set anew: a new Ref, element n is at the target path
  | move (n : Option Nat)                -- only the part that holds the target is set anew: element n is at the target path now

/-- the effect of a step, errors being left to the caller -/
def refStep [Runtime] (wr : Writable) (w : RefWorld) : RefOp → RefWorld
  | .read => (refRead w).1
  | .refSet v => (Flatland.refSet wr w v).1
  | .refValue v => (refSetValue wr w v).1
  | .refU u => (refSetU wr w u).1
  | .set n v => w.put n (scalarSet (w.types n) (w.cells n) v).1
  | .assign n st => w.put n st
  | .rebuild n => { w with here := n, cached := .none, refRaw := .none }
  | .move n => { w with here := n }

def refRun [Runtime] (wr : Writable) (w : RefWorld) (ops : List RefOp) : RefWorld := ops.foldl (refStep wr) w

/-- steps that leave the target in its place, or replace it together with the Ref -/
def RefOp.InPlace : RefOp → Prop
  | .move _ => False
  | _ => True

/-- steps that go through the Ref -/
def RefOp.ByRef : RefOp → Prop
  | .read | .refSet _ | .refValue _ | .refU _ => True
  | _ => False

/-- The Ref shows what the element at its path holds, or raises LookupError when there is none. -/
def Mirrors (w : RefWorld) : Prop :=
  match w.here with
  | some n => (refRead w).2 = .ok ((w.cells n).value, (w.cells n).u)
  | .none => (refRead w).2 = .error .lookup

end Flatland.Spec
