import Verif.Model.Nodes
/-
Model of navigation in trees that also have Compounds and JoinedStrings in them (flatland/schema/base.py:380-605, flatland/schema/paths.py:57-93).

A Compound is a Mapping before it is a Scalar and a JoinedString an Array before it is a String (flatland/schema/compound.py:73, 247), so their children,
the children's parents and the lookup of a child are those of a Dict and of an Array.  Neither Mapping nor Array says what `bool()` of it is, but Scalar
does (flatland/schema/scalars.py:134-136), and comes before `dict` and `list`.  A MultiValue is an Array here: it is true if it has members
(flatland/schema/containers.py:730-733).

Simplifications: as in Model/Nodes.lean; the `u` and `value` of a Compound and the text of a JoinedString are data of the element here (Model/Compounds.lean
and Model/Truth.lean say what they are), and reading them does not raise.
-/
namespace Flatland
open Flatland.Spec (Pos)

/-- Elements: the kinds of Model/Tree.lean, Compounds with their present `u` and `value`, and JoinedStrings with their present text
[schema/containers.py:166-1240, schema/compound.py:73-193, 247-330] -/
inductive NElem
  | absent
  | scalar (name : Option PStr) (st : ScalarState)
  | dict (name : Option PStr) (kids : List NElem)
  | list (name : Option PStr) (kids : List NElem)
  | array (name : Option PStr) (kids : List NElem)
  | compound (name : Option PStr) (u : PStr) (value : PyVal) (kids : List NElem)
  | joined (name : Option PStr) (text : PStr) (kids : List NElem)

/-- `.children` with the places of missing fields [schema/containers.py:274-276, 544-546, 809-812] -/
def NElem.kids : NElem → List NElem
  | .dict _ ks | .list _ ks | .array _ ks | .compound _ _ _ ks | .joined _ _ ks => ks
  | _ => []

/-- is there an element? [schema/containers.py:1141-1148] -/
def NElem.present : NElem → Bool
  | .absent => false
  | _ => true

mutual
/-- the tree with Compounds as the Mappings and JoinedStrings as the Arrays they are [schema/compound.py:73, 247] -/
def shape : NElem → Elem
  | .absent => .absent
  | .scalar n st => .scalar n st
  | .dict n ks => .dict n (shapes ks)
  | .list n ks => .list n (shapes ks)
  | .array n ks => .array n (shapes ks)
  | .compound n _ _ ks => .dict n (shapes ks)
  | .joined n _ ks => .array n (shapes ks)
/-- see `shape` [schema/compound.py:73, 247] -/
def shapes : List NElem → List Elem
  | [] => []
  | k :: ks => shape k :: shapes ks
end

/-- the element at a position [no code] -/
def nElemAt : NElem → Pos → Option NElem
  | e, [] => some e
  | e, i :: ps => match e.kids[i]? with
    | some k => nElemAt k ps
    | .none => .none

/-- `bool(el)`: Scalar.__bool__ also of Compounds and JoinedStrings, `len()` of other containers [schema/scalars.py:134-136, schema/containers.py:730-733] -/
def nTruthy [Runtime] : NElem → Bool
  | .scalar _ st => scalarBool st
  | .compound _ u v _ => !u.isEmpty && truthy v
  | .joined _ t _ => !t.isEmpty && truthy (.str t)
  | e => e.kids.any NElem.present

/-- the tree as seen by path expressions: a slot is a plain object and true [schema/paths.py:57-93, schema/base.py:380-405] -/
def richGraph [Runtime] (e : NElem) : Graph Node :=
  { treeGraph (shape e) with
    truthy := fun n => if n.slot then true else match nElemAt e n.pos with
      | some k => nTruthy k
      | .none => false }

end Flatland
