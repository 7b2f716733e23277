import Verif.Model.RichNodes
import Verif.Spec.Nodes
import Verif.Spec.Paths
import Verif.Spec.Scalars
/-! Paths in trees with Compounds and JoinedStrings (C92). -/
namespace Flatland.Spec
open Flatland

/-- the same elements, but without a parent where the parent is false -/
def withoutFalseParents {N} (g : Graph N) : Graph N :=
  { g with parent := fun x => (g.parent x).filter g.truthy }

/-- There is an element at the position, and the way to it leads through members of Lists, Arrays, MultiValues and JoinedStrings and through fields of
Dicts and Compounds that are named, with a name satisfying `P` that no other field there has. -/
def Way (P : PStr → Prop) : Elem → Pos → Prop
  | e, [] => e ≠ .absent
  | .dict _ ks, i :: ps => ∃ k n, ks[i]? = some k ∧ k.name = some n ∧ P n ∧
      (∀ (j : Nat) k', ks[j]? = some k' → k'.present = true → k'.name = some n → j = i) ∧ Way P k ps
  | .list _ ks, i :: ps => ∃ k, ks[i]? = some k ∧ Way P k ps
  | .array _ ks, i :: ps => ∃ k, ks[i]? = some k ∧ Way P k ps
  | _, _ :: _ => False

/-- how the children on the way are called: fields by name, members by index -/
def wayNames : Elem → Pos → List PStr
  | _, [] => []
  | .dict _ ks, i :: ps => match ks[i]? with
    | some k => k.name.getD [] :: wayNames k ps
    | none => []
  | e, i :: ps => decimal i :: (match e.kids[i]? with | some k => wayNames k ps | none => [])

/-- there is this element at the position -/
def At (e : NElem) (p : Pos) (k : NElem) : Prop := nElemAt e p = some k ∧ k ≠ .absent

/-- the name of an element -/
def nameN : NElem → Option PStr
  | .scalar n _ | .dict n _ | .list n _ | .array n _ | .compound n _ _ _ | .joined n _ _ => n
  | .absent => none

/-- Dicts and Compounds have fields -/
inductive HasFields : NElem → List NElem → Prop
  | dict {n ks} : HasFields (.dict n ks) ks
  | compound {n u v ks} : HasFields (.compound n u v ks) ks

/-- Lists have members; so have Arrays, MultiValues and JoinedStrings (`arrays`: those count too) -/
inductive HasMembers (arrays : Bool) : NElem → List NElem → Prop
  | list {n ks} : HasMembers arrays (.list n ks) ks
  | array {n ks} : arrays = true → HasMembers arrays (.array n ks) ks
  | joined {n t ks} : arrays = true → HasMembers arrays (.joined n t ks) ks

/-- From an element, fields with names satisfying `P`, which no other field there has, and members of Lists (or Arrays and JoinedStrings) lead to the
position; these are the names of the fields and the indexes of the members on the way. -/
inductive LeadsTo (P : PStr → Prop) (arrays : Bool) : NElem → Pos → List PStr → Prop
  | here {e} : e ≠ .absent → LeadsTo P arrays e [] []
  | field {e ks} {i : Nat} {k n p names} : HasFields e ks → ks[i]? = some k → nameN k = some n → P n →
      (∀ (j : Nat) k', ks[j]? = some k' → k' ≠ .absent → nameN k' = some n → j = i) → LeadsTo P arrays k p names → LeadsTo P arrays e (i :: p) (n :: names)
  | member {e ks} {i : Nat} {k p names} : HasMembers arrays e ks → ks[i]? = some k → LeadsTo P arrays k p names →
      LeadsTo P arrays e (i :: p) (decimal i :: names)

/-- a Compound or JoinedString that shows nothing, or whose value is false -/
def BlankWhole [Runtime] : NElem → Prop
  | .compound _ u v _ => u = [] ∨ FalseValue v
  | .joined _ t _ => t = []
  | _ => False

end Flatland.Spec
