import Verif.Spec.Values
import Verif.Spec.Cycle
import Verif.Spec.RichCycle
/-
Specification for C89: what is left of a form when its value is stored and a new form of the same class is set to it, whatever the form
holds.
-/
namespace Flatland.Spec

variable [Runtime]

mutual
/-- What comes of setting a new form to the value of this one: the same Dicts, Lists and Arrays, and at every scalar a new one set to the
value of the old. -/
def reloaded : Schema → Elem → Elem
  | .scalar _ t, .scalar n st => .scalar n (scalarSet t .fresh st.value).1
  | .dict _ _ _ fs, .dict n ks => .dict n (reloadedAll fs ks)
  | .list _ _ _ m, .list n ks => .list n (ks.map (reloaded m))
  | .array _ _ m, .array n ks => .array n (ks.map (reloaded m))
  | _, e => e
/-- see `reloaded` -/
def reloadedAll : List Schema → List Elem → List Elem
  | f :: fs, k :: ks => reloaded f k :: reloadedAll fs ks
  | _, ks => ks
end

/-- the scalar's class takes the scalar's value without an exception escaping -/
def TakesItsValue (t : ScalarType) (st : ScalarState) : Prop := ∃ b, (scalarSet t .fresh st.value).2 = .ok b

/-- and with True -/
def TakesItsValueWell (t : ScalarType) (st : ScalarState) : Prop := (scalarSet t .fresh st.value).2 = .ok true

/-- a new scalar, or one that `set` has returned on -/
def WasSet (t : ScalarType) (st : ScalarState) : Prop := st = .fresh ∨ ∃ old x b, scalarSet t old x = (st, .ok b)

/-- What may happen to a scalar: value and text are as before; or it had no value, and then it has none again, and no text, or is False. -/
def Kept (st st' : ScalarState) : Prop :=
  SameData st st' ∨ (st.value = .none ∧ ((st'.value = .none ∧ st'.u = []) ∨ st'.value = .bool false))

mutual
/-- a strict SparseDict in it lacks a field, and no List or Array is around that SparseDict -/
def Refuses : Schema → Elem → Prop
  | .dict _ _ policy fs, .dict _ ks => (policy = .strict ∧ ∃ k ∈ ks, k.present = false) ∨ RefusesAll fs ks
  | _, _ => False
/-- see `Refuses` -/
def RefusesAll : List Schema → List Elem → Prop
  | f :: fs, k :: ks => Refuses f k ∨ RefusesAll fs ks
  | _, _ => False
end

/-- the form after its value has been stored, and a new form set to it, `n` times -/
def reloads (s : Schema) : Nat → Elem → Except PyErr Elem
  | 0, e => .ok e
  | n + 1, e => match setVal s (elemValue e) with
    | .ok (e', _) => reloads s n e'
    | .error x => .error x

/-- the scalar took what was submitted for it; or nothing was, and its class takes None as None -/
def Accepted (t : ScalarType) (st : ScalarState) : Prop :=
  (st = .fresh ∧ t.adapt .none = .ok .none) ∨ ∃ x, scalarSet t .fresh (.str x) = (st, .ok true)

end Flatland.Spec
