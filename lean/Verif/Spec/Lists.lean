import Verif.Model.ListOps
/-! Specifications for List, Array and MultiValue operations. -/
namespace Flatland.Spec
open Flatland

variable {V E : Type}

/-- Slot `i` is named `i`: flattened keys use the position as index. -/
def Numbered (st : Slots E) : Prop := ∀ i s, st[i]? = some s → s.name = decimal i

/-- not a sort in which a comparison raises -/
def Compares {κ} : ListOp V E κ → Prop
  | .sort (.compareFails ..) => False
  | _ => True

/-- a history of operations, each successful or not -/
def listHistory {κ} (c : MemberClass V E) (st : Slots E) (ops : List (ListOp V E κ)) : Slots E :=
  ops.foldl (listStep c) st

/-- `lt` orders without contradictions: irreflexive, transitive, and incomparability is transitive -/
structure StrictWeak {κ} (lt : κ → κ → Bool) : Prop where
  irrefl : ∀ a, lt a a = false
  trans : ∀ a b c, lt a b = true → lt b c = true → lt a c = true
  incomp : ∀ a b c, lt a b = false → lt b a = false → lt b c = false → lt c b = false → lt a c = false ∧ lt c a = false

/-- what the items of an iterable become: elements stay, values are made into new members -/
def Becomes (c : MemberClass V E) : List (Arg V E) → List E → Prop
  | [], [] => True
  | .el e :: as, e' :: es => e = e' ∧ Becomes c as es
  | .val v :: as, e' :: es => c.make v = .ok e' ∧ Becomes c as es
  | _, _ => False

/-- each item sets a new member without raising; the members and the results -/
def EachSet (c : MemberClass V E) : List (Arg V E) → List E → List Bool → Prop
  | [], [], [] => True
  | a :: as, e :: es, b :: bs => c.set c.blank a = (e, .ok b) ∧ EachSet c as es bs
  | _, _, _ => False

end Flatland.Spec
