import Verif.Model.Nodes
import Verif.Spec.Paths
/-! Specifications for navigation: routes through Dicts and Lists. -/
namespace Flatland.Spec
open Flatland

/-- There is an element at the position, and the way to it leads through Lists and through Dict fields that are named, with
a name satisfying `P` that no other field of that Dict has. -/
def Route (P : PStr → Prop) : Elem → Pos → Prop
  | e, [] => e ≠ .absent
  | .dict _ ks, i :: ps => ∃ k n, ks[i]? = some k ∧ k.name = some n ∧ P n ∧
      (∀ (j : Nat) k', ks[j]? = some k' → k'.present = true → k'.name = some n → j = i) ∧ Route P k ps
  | .list _ ks, i :: ps => ∃ k, ks[i]? = some k ∧ Route P k ps
  | _, _ :: _ => False

/-- how the children on the way are called: fields by name, List members by index -/
def routeNames : Elem → Pos → List PStr
  | _, [] => []
  | .list _ ks, i :: ps => decimal i :: (match ks[i]? with | some k => routeNames k ps | none => [])
  | e, i :: ps => match e.kids[i]? with
    | some k => k.name.getD [] :: routeNames k ps
    | none => []

/-- a name that can be a part of a dotted path: not empty, and without the (first character of the) separator -/
def PartName (c : Char) (n : PStr) : Prop := n ≠ [] ∧ c ∉ n

/-- a name that can be a step of a slashed path -/
def StepName (n : PStr) : Prop := n ≠ [] ∧ n.getLast? ≠ some '\\'

mutual
/-- no List anywhere in the tree (and Array members are there) -/
def NoLists : Elem → Prop
  | .list .. => False
  | .dict _ ks => NoListsAll ks
  | .array _ ks => NoListsAll ks ∧ ∀ k ∈ ks, k ≠ .absent
  | _ => True
/-- see `NoLists` -/
def NoListsAll : List Elem → Prop
  | [] => True
  | k :: ks => NoLists k ∧ NoListsAll ks
end

end Flatland.Spec
