import Verif.Model.Tree
/-!
Specifications for element trees: positions, document-order leaves, conformance of an element to its schema, naming
conditions on schemas, and what a set_flat of flattened data is expected to restore.
-/
namespace Flatland.Spec
open Flatland

/-- A position in an element tree: child numbers from the root down. -/
abbrev Pos := List Nat

/-- the element at a position -/
def elemAt : Elem → Pos → Option Elem
  | .absent, _ => none
  | e, [] => some e
  | e, i :: ps => match e.kids[i]? with
    | some k => elemAt k ps
    | none => none

/-- the names met from the root down to a position, the index of a List member being part of the way -/
def namesAt : Elem → Pos → NamePath
  | e, [] => [e.name]
  | .list n ks, i :: ps => n :: some (decimal i) :: (match ks[i]? with | some k => namesAt k ps | none => [])
  | e, i :: ps => e.name :: (match e.kids[i]? with | some k => namesAt k ps | none => [])

/-- the text of the scalar at a position -/
def textAt (e : Elem) (q : Pos) : PStr :=
  match elemAt e q with
  | some (.scalar _ st) => st.u
  | _ => []

/-- The two positions are the same, or are members of one Array. -/
def SameSpot (e : Elem) (p q : Pos) : Prop :=
  p = q ∨ ∃ r i j n ks, p = r ++ [i] ∧ q = r ++ [j] ∧ elemAt e r = some (.array n ks)

/-- Joins two optional name parts with the separator. -/
def addName (sep : PStr) : Option PStr → Option PStr → Option PStr
  | none, k => k
  | some n, none => some n
  | some n, some k => some (n ++ sep ++ k)

/-- key denoted by a list of optional names -/
def keyOf (sep : PStr) (np : NamePath) : Option PStr := np.foldr (addName sep) none

/-- a scalar found in a tree: where it is, the names on the way (its own last), and its data -/
structure LeafAt where
  pos : Pos
  names : NamePath
  st : ScalarState

mutual
/-- all scalars of a tree in document (depth-first, left-to-right) order -/
def leaves : Elem → List LeafAt
  | .scalar n st => [⟨[], [n], st⟩]
  | .dict n ks | .array n ks => (leavesKids 0 ks).map fun l => ⟨l.pos, n :: l.names, l.st⟩
  | .list n ks => (leavesSlots 0 ks).map fun l => ⟨l.pos, n :: l.names, l.st⟩
  | .absent => []
/-- scalars below the children of a Dict or Array -/
def leavesKids : Nat → List Elem → List LeafAt
  | _, [] => []
  | i, k :: ks => (leaves k).map (fun l => ⟨i :: l.pos, l.names, l.st⟩) ++ leavesKids (i + 1) ks
/-- scalars below the members of a List, the index of the member being part of the name -/
def leavesSlots : Nat → List Elem → List LeafAt
  | _, [] => []
  | i, k :: ks => (leaves k).map (fun l => ⟨i :: l.pos, some (decimal i) :: l.names, l.st⟩) ++ leavesSlots (i + 1) ks
end

/-- the flat pair of a scalar -/
def LeafAt.pair (sep : PStr) (l : LeafAt) : FPair := (keyOf sep l.names, l.st.u)

/-- Dict, List or Array -/
def isContainer : Schema → Bool
  | .scalar .. => false
  | _ => true

/-- Two sibling fields whose flat keys cannot be confused: different names; a container's name does not extend into the other's name
through the separator; and for SparseDicts (where a key creates every field whose name it starts with) no name starts
the other. -/
def Compatible (sep : PStr) (mode : DictMode) (f g : Schema) : Prop :=
  ∀ fn gn, f.name = some fn → g.name = some gn →
    fn ≠ gn ∧
    (isContainer f = true → ¬ fn ++ sep <+: gn ++ sep) ∧
    (isContainer g = true → ¬ gn ++ sep <+: fn ++ sep) ∧
    (mode ≠ .full → ¬ fn <+: gn ++ sep ∧ ¬ gn <+: fn ++ sep)

/-- a usable name: not empty and without line breaks -/
def GoodName (n : Option PStr) : Prop := ∀ t, n = some t → t ≠ [] ∧ '\n' ∉ t

mutual
/-- Naming discipline for schemas: names are usable; Dict fields are named and pairwise compatible; Array members are
scalars. -/
def WellNamed (sep : PStr) : Schema → Prop
  | .scalar h _ => GoodName h.name
  | .dict h mode _ fs => GoodName h.name ∧ (∀ f ∈ fs, f.name ≠ none) ∧ fs.Pairwise (Compatible sep mode) ∧
      WellNamedAll sep fs
  | .list h _ _ m => GoodName h.name ∧ WellNamed sep m
  | .array h _ m => GoodName h.name ∧ isContainer m = false ∧ WellNamed sep m
/-- every schema of the list is well named -/
def WellNamedAll (sep : PStr) : List Schema → Prop
  | [] => True
  | f :: fs => WellNamed sep f ∧ WellNamedAll sep fs
end

/-- A separator that cannot be confused with an index. -/
def GoodSep [Runtime] (sep : PStr) : Prop := ∃ c cs, sep = c :: cs ∧ digit c = none

/-- The element can be addressed by a key of its own: not an unnamed scalar, nor an unnamed Array of unnamed members. -/
def Keyed : Schema → Prop
  | .scalar h _ => h.name ≠ none
  | .array h _ m => h.name ≠ none ∨ m.name ≠ none
  | _ => True

mutual
/-- `e` is an instance of `s` -/
def Conforms : Schema → Elem → Prop
  | .scalar h _, .scalar n _ => n = h.name
  | .dict h mode _ fs, .dict n ks => n = h.name ∧ ConformsAll mode fs ks
  | .list h _ _ m, .list n ks => n = h.name ∧ ∀ k ∈ ks, Conforms m k
  | .array h _ m, .array n ks => n = h.name ∧ ∀ k ∈ ks, Conforms m k
  | _, _ => False
/-- the children are instances of the fields; a field may only be missing when the Dict's mode allows it -/
def ConformsAll (mode : DictMode) : List Schema → List Elem → Prop
  | [], [] => True
  | f :: fs, k :: ks => ((k = .absent ∧ autoField mode f = false) ∨ Conforms f k) ∧ ConformsAll mode fs ks
  | _, _ => False
end

variable [Runtime]

/-- is this scalar's pair dropped on the way in (blank inside a pruning List)? -/
def dropped (p : Bool) (l : LeafAt) : Bool := p && l.st.u == []

mutual
/-- What flat data can carry (`p`: some enclosing List prunes blanks): Lists are within their limit and every member
has a scalar that survives (likewise every optional SparseDict field that is present); pruning Arrays hold no blank member; and every scalar accepts its own text without an
exception escaping. -/
def Carried (p : Bool) : Schema → Elem → Prop
  | .scalar _ t, .scalar _ st => ∃ b, (scalarSet t .fresh (.str st.u)).2 = .ok b
  | .dict _ mode _ fs, .dict _ ks => CarriedAll p mode fs ks
  | .list _ prune max m, .list _ ks => ks.length ≤ max ∧
      ∀ k ∈ ks, Carried (p || prune) m k ∧ ∃ l ∈ leaves k, dropped (p || prune) l = false
  | .array _ prune m, .array _ ks => ∀ k ∈ ks, Carried false m k ∧ ((p || prune) = true → k.state.u ≠ [])
  | _, _ => True
/-- see `Carried`; a SparseDict field that a new element would not have must have a scalar that survives -/
def CarriedAll (p : Bool) (mode : DictMode) : List Schema → List Elem → Prop
  | f :: fs, k :: ks => Carried p f k ∧
      (k.present = true → autoField mode f = false → ∃ l ∈ leaves k, dropped p l = false) ∧ CarriedAll p mode fs ks
  | _, _ => True
end

mutual
/-- What comes back: the same tree with every scalar set from its own text (`set(u)` on a new scalar), except that blanks
inside a pruning List stay unset. -/
def restored (p : Bool) : Schema → Elem → Elem
  | .scalar _ t, .scalar n st => .scalar n (if p && st.u == [] then .fresh else (scalarSet t .fresh (.str st.u)).1)
  | .dict _ _ _ fs, .dict n ks => .dict n (restoredAll p fs ks)
  | .list _ prune _ m, .list n ks => .list n (ks.map (restored (p || prune) m))
  | .array _ _ m, .array n ks => .array n (ks.map (restored false m))
  | _, e => e
/-- see `restored` -/
def restoredAll (p : Bool) : List Schema → List Elem → List Elem
  | f :: fs, k :: ks => restored p f k :: restoredAll p fs ks
  | _, ks => ks
end

mutual
/-- Same structure and names, and `R`-related scalars. -/
def SameBy (R : ScalarState → ScalarState → Prop) : Elem → Elem → Prop
  | .scalar n st, .scalar n' st' => n = n' ∧ R st st'
  | .dict n ks, .dict n' ks' | .list n ks, .list n' ks' | .array n ks, .array n' ks' => n = n' ∧ SameByAll R ks ks'
  | .absent, .absent => True
  | _, _ => False
/-- see `SameBy` -/
def SameByAll (R : ScalarState → ScalarState → Prop) : List Elem → List Elem → Prop
  | [], [] => True
  | k :: ks, k' :: ks' => SameBy R k k' ∧ SameByAll R ks ks'
  | _, _ => False
end

/-- the same text -/
def SameText (a b : ScalarState) : Prop := a.u = b.u
/-- the same text and native value (everything but the `.raw` input) -/
def SameData (a b : ScalarState) : Prop := a.u = b.u ∧ a.value = b.value

mutual
/-- Every scalar class and state of the tree satisfies `P`; the flag says whether some enclosing List prunes blanks. -/
def EachScalar (P : Bool → ScalarType → ScalarState → Prop) (p : Bool) : Schema → Elem → Prop
  | .scalar _ t, .scalar _ st => P p t st
  | .dict _ _ _ fs, .dict _ ks => EachScalarAll P p fs ks
  | .list _ prune _ m, .list _ ks => ∀ k ∈ ks, EachScalar P (p || prune) m k
  | .array _ _ m, .array _ ks => ∀ k ∈ ks, EachScalar P false m k
  | _, _ => True
/-- see `EachScalar` -/
def EachScalarAll (P : Bool → ScalarType → ScalarState → Prop) (p : Bool) : List Schema → List Elem → Prop
  | f :: fs, k :: ks => EachScalar P p f k ∧ EachScalarAll P p fs ks
  | _, _ => True
end

/-- The scalar, when set from its own text (or left new, if it is blank inside a pruning List), is `R`-related to what it was. -/
def ReadsBack (R : ScalarState → ScalarState → Prop) (p : Bool) (t : ScalarType) (st : ScalarState) : Prop :=
  R st (if p && st.u == [] then .fresh else (scalarSet t .fresh (.str st.u)).1)

/-- the flat pairs of the submission whose key is `k` -/
def valuesFor (k : PStr) (ps : List (PStr × PStr)) : List (PStr × PStr) := ps.filter fun x => x.1 == k

end Flatland.Spec
