import Verif.Model.RichTree
import Verif.Spec.Tree
/-!
Specifications for trees with Compounds and JoinedStrings: which are instances of a class, naming conditions, what flat data can carry and what is expected back.
-/
namespace Flatland.Spec
open Flatland

/-- Keys of the element's children start with its name and the separator: containers, Compounds, and JoinedStrings whose members are named. -/
def spreads : RSchema → Bool
  | .plain s => isContainer s
  | .joined _ _ m => m.isSome
  | _ => true

/-- Two sibling fields whose flat keys cannot be confused (see `Compatible`). -/
def RCompatible (sep : PStr) (mode : DictMode) (f g : RSchema) : Prop :=
  ∀ fn gn, f.name = some fn → g.name = some gn →
    fn ≠ gn ∧
    (spreads f = true → ¬ fn ++ sep <+: gn ++ sep) ∧
    (spreads g = true → ¬ gn ++ sep <+: fn ++ sep) ∧
    (mode ≠ .full → ¬ fn <+: gn ++ sep ∧ ¬ gn <+: fn ++ sep)

/-- a Compound without a name -/
def NamelessCompound : RSchema → Prop
  | .compound h _ _ => h.name = none
  | _ => False

mutual
/-- Naming discipline (see `WellNamed`); moreover no List has Compounds without a name as its members. -/
def RWellNamed (sep : PStr) : RSchema → Prop
  | .plain s => WellNamed sep s
  | .joined h _ m => GoodName h.name ∧ GoodName m
  | .compound h _ fs => GoodName h.name ∧ (∀ f ∈ fs, f.name ≠ none) ∧ fs.Pairwise (Compatible sep .full) ∧ WellNamedAll sep fs
  | .dict h mode _ fs => GoodName h.name ∧ (∀ f ∈ fs, f.name ≠ none) ∧ fs.Pairwise (RCompatible sep mode) ∧ RWellNamedAll sep fs
  | .list h _ _ m => GoodName h.name ∧ RWellNamed sep m ∧ ¬ NamelessCompound m
/-- every schema of the list is well named -/
def RWellNamedAll (sep : PStr) : List RSchema → Prop
  | [] => True
  | f :: fs => RWellNamed sep f ∧ RWellNamedAll sep fs
end

/-- The element can be addressed by a key of its own (see `Keyed`). -/
def RKeyed : RSchema → Prop
  | .plain s => Keyed s
  | .joined h _ _ => h.name ≠ none
  | _ => True

mutual
/-- `e` is an instance of `s` -/
def RConforms : RSchema → RElem → Prop
  | .plain s, .plain e => Conforms s e
  | .joined h c m, .joined n c' m' _ => n = h.name ∧ c' = c ∧ m' = m
  | .compound h compose fs, .compound n compose' ks => n = h.name ∧ compose' = compose ∧ ConformsAll .full fs ks
  | .dict h mode _ fs, .dict n ks => n = h.name ∧ RConformsAll mode fs ks
  | .list h _ _ m, .list n ks => n = h.name ∧ ∀ k ∈ ks, RConforms m k
  | _, _ => False
/-- the children are instances of the fields; a field may only be missing when the Dict's mode allows it -/
def RConformsAll (mode : DictMode) : List RSchema → List RElem → Prop
  | [], [] => True
  | f :: fs, k :: ks => ((k = .plain .absent ∧ rAutoField mode f = false) ∨ RConforms f k) ∧ RConformsAll mode fs ks
  | _, _ => False
end

mutual
/-- the texts of the scalars and JoinedStrings of a tree (members of JoinedStrings and Compounds themselves not included) -/
def rTexts : RElem → List PStr
  | .plain e => (leaves e).map fun l => l.st.u
  | .joined _ c _ ms => [joinedText c ms]
  | .compound _ _ ks => (leavesKids 0 ks).map fun l => l.st.u
  | .dict _ ks | .list _ ks => rTextsAll ks
/-- see `rTexts` -/
def rTextsAll : List RElem → List PStr
  | [] => []
  | k :: ks => rTexts k ++ rTextsAll ks
end

/-- something of the element is in the flat data and is not pruned -/
def Survives (p : Bool) (e : RElem) : Prop := ∃ t ∈ rTexts e, (p && t == []) = false

mutual
/-- the texts of the Compounds in a tree -/
def compoundTexts : RElem → List PStr
  | .plain _ | .joined .. => []
  | .compound _ compose ks => [compose ks]
  | .dict _ ks | .list _ ks => compoundTextsAll ks
/-- see `compoundTexts` -/
def compoundTextsAll : List RElem → List PStr
  | [] => []
  | k :: ks => compoundTexts k ++ compoundTextsAll ks
end

/-- if the text of a Compound in the element is sent, some scalar or JoinedString of the element is, too -/
def Backed (p : Bool) (e : RElem) : Prop := (∃ t ∈ compoundTexts e, (p && t == []) = false) → Survives p e

mutual
/-- Members of Lists, and fields of SparseDicts that are not always there, are not sent by nothing but a Compound's own text. -/
def CompoundsBacked (p : Bool) : RSchema → RElem → Prop
  | .dict _ mode _ fs, .dict _ ks => CompoundsBackedAll p mode fs ks
  | .list _ prune _ m, .list _ ks => ∀ k ∈ ks, CompoundsBacked (p || prune) m k ∧ Backed (p || prune) k
  | _, _ => True
/-- see `CompoundsBacked` -/
def CompoundsBackedAll (p : Bool) (mode : DictMode) : List RSchema → List RElem → Prop
  | f :: fs, k :: ks => CompoundsBacked p f k ∧ (rAutoField mode f = false → Backed p k) ∧ CompoundsBackedAll p mode fs ks
  | _, _ => True
end

mutual
/-- The pairs one might expect of `flatten`, element by element in document order: scalars and JoinedStrings give their key and text; so do Compounds,
before their fields; and so do the members of a JoinedString.  `pre` are the names above. -/
def listing (sep : PStr) (pre : NamePath) : RElem → List (PStr × PStr)
  | .plain e => (leaves e).map fun l => (flatName sep (pre ++ l.names), l.st.u)
  | .joined n c m ms => (flatName sep (pre ++ [n]), joinedText c ms) :: ms.map fun st => (flatName sep (pre ++ [n, m]), st.u)
  | .compound n compose ks =>
    (flatName sep (pre ++ [n]), compose ks) :: (leavesKids 0 ks).map fun l => (flatName sep (pre ++ n :: l.names), l.st.u)
  | .dict n ks => listingAll sep (pre ++ [n]) ks
  | .list n ks => listingSlots sep (pre ++ [n]) 0 ks
/-- the listing of a Dict's fields -/
def listingAll (sep : PStr) (pre : NamePath) : List RElem → List (PStr × PStr)
  | [] => []
  | k :: ks => listing sep pre k ++ listingAll sep pre ks
/-- the listing of a List's members -/
def listingSlots (sep : PStr) (pre : NamePath) : Nat → List RElem → List (PStr × PStr)
  | _, [] => []
  | i, k :: ks => listing sep (pre ++ [some (decimal i)]) k ++ listingSlots sep pre (i + 1) ks
end

mutual
/-- The pairs among these that carry something: those of scalars and JoinedStrings, not those of Compounds (their fields are there) and of members of
JoinedStrings.  A page with a text field for each scalar and each JoinedString sends these. -/
def carrying (sep : PStr) (pre : NamePath) : RElem → List (PStr × PStr)
  | .plain e => (leaves e).map fun l => (flatName sep (pre ++ l.names), l.st.u)
  | .joined n c _ ms => [(flatName sep (pre ++ [n]), joinedText c ms)]
  | .compound n _ ks => (leavesKids 0 ks).map fun l => (flatName sep (pre ++ n :: l.names), l.st.u)
  | .dict n ks => carryingAll sep (pre ++ [n]) ks
  | .list n ks => carryingSlots sep (pre ++ [n]) 0 ks
/-- those of a Dict's fields -/
def carryingAll (sep : PStr) (pre : NamePath) : List RElem → List (PStr × PStr)
  | [] => []
  | k :: ks => carrying sep pre k ++ carryingAll sep pre ks
/-- those of a List's members -/
def carryingSlots (sep : PStr) (pre : NamePath) : Nat → List RElem → List (PStr × PStr)
  | _, [] => []
  | i, k :: ks => carrying sep (pre ++ [some (decimal i)]) k ++ carryingSlots sep pre (i + 1) ks
end

variable [Runtime]

mutual
/-- What flat data can carry (see `Carried`): in addition, every JoinedString accepts its own text without an exception escaping. -/
def RCarried (p : Bool) : RSchema → RElem → Prop
  | .plain s, .plain e => Carried p s e
  | .joined _ c _, .joined _ _ _ ms => ∃ b, (joinedSet c [] (.str (joinedText c ms))).2 = .ok b
  | .compound _ _ fs, .compound _ _ ks => CarriedAll p .full fs ks
  | .dict _ mode _ fs, .dict _ ks => RCarriedAll p mode fs ks
  | .list _ prune max m, .list _ ks => ks.length ≤ max ∧ ∀ k ∈ ks, RCarried (p || prune) m k ∧ Survives (p || prune) k
  | _, _ => True
/-- see `RCarried` -/
def RCarriedAll (p : Bool) (mode : DictMode) : List RSchema → List RElem → Prop
  | f :: fs, k :: ks => RCarried p f k ∧ (k.present = true → rAutoField mode f = false → Survives p k) ∧ RCarriedAll p mode fs ks
  | _, _ => True
end

mutual
/-- What comes back (see `restored`): the same tree with every scalar and every JoinedString set from its own text, blanks inside a pruning List left out. -/
def rRestored (p : Bool) : RSchema → RElem → RElem
  | .plain s, .plain e => .plain (restored p s e)
  | .joined _ _ _, .joined n c m ms =>
    .joined n c m (if p && joinedText c ms == [] then [] else (joinedSet c [] (.str (joinedText c ms))).1)
  | .compound _ _ fs, .compound n compose ks => .compound n compose (restoredAll p fs ks)
  | .dict _ _ _ fs, .dict n ks => .dict n (rRestoredAll p fs ks)
  | .list _ prune _ m, .list n ks => .list n (ks.map (rRestored (p || prune) m))
  | _, e => e
/-- see `rRestored` -/
def rRestoredAll (p : Bool) : List RSchema → List RElem → List RElem
  | f :: fs, k :: ks => rRestored p f k :: rRestoredAll p fs ks
  | _, ks => ks
end

end Flatland.Spec
