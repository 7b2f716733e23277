import Verif.Model.HalfWay
import Verif.Spec.Tree
/-! What is said about calls that raise. -/
namespace Flatland.Spec

/-- The value that stops after `n` items. -/
def firstItems (n : Nat) : PyVal → PyVal
  | .list xs => .list (xs.take n)
  | .dict kvs => .dict (kvs.take n)
  | .str s => .str (s.take n)
  | v => v

/-- The policy without the demand that every field be given. -/
def tolerant : Policy → Policy
  | .strict => .subset
  | p => p

/-- The value cannot be iterated. -/
def NotIterable : PyVal → Prop
  | .list _ => False
  | .dict _ => False
  | .str _ => False
  | _ => True

/-- The call returned, leaving `e`, with the result `b`. -/
def Returned {α β : Type} (r : Ended α β) (e : α) (b : β) : Prop := r = (e, .ok b)

/-- The call raised, leaving `e`. -/
def Raised {α β : Type} (r : Ended α β) (e : α) : Prop := ∃ er, r = (e, .error er)

end Flatland.Spec
