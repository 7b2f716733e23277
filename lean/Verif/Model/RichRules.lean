import Verif.Model.RichValidation
import Verif.Model.TreeRules
/-!
Validators that look at values, texts and other elements, in trees that also have Compounds and JoinedStrings in them (flatland/validation/scalars.py:536-617,
flatland/validation/containers.py:12-106), as Model/TreeRules.lean has them for the other trees.

Simplifications: as in Model/TreeRules.lean and Model/RichNodes.lean.
-/
namespace Flatland
open Flatland.Spec (Pos)

/-- the element's name [schema/base.py:69] -/
def nName : NElem → Option PStr
  | .scalar n _ | .dict n _ | .list n _ | .array n _ | .compound n _ _ _ | .joined n _ _ => n
  | .absent => .none

mutual
/-- `el.value`: a Compound's is the one it shows, a JoinedString's is its text [schema/containers.py:391, 892, schema/compound.py:152-154, 322-325] -/
def nValue : NElem → PyVal
  | .scalar _ st => st.value
  | .dict _ ks => .dict (nItems ks)
  | .list _ ks => .list (nValues ks)
  | .array _ ks => .list (nValues ks)
  | .compound _ _ v _ => v
  | .joined _ t _ => .str t
  | .absent => .none
/-- `dict((key, value.value) for key, value in iteritems(self))` [schema/containers.py:892] -/
def nItems : List NElem → List (PStr × PyVal)
  | [] => []
  | k :: ks => if k.present then ((nName k).getD [], nValue k) :: nItems ks else nItems ks
/-- `list(value.value for value in self.children)` [schema/containers.py:391] -/
def nValues : List NElem → List PyVal
  | [] => []
  | k :: ks => nValue k :: nValues ks
end

/-- a child's text within the text of its container: only elements that are no Containers are quoted [schema/containers.py:395-398, 882-884] -/
def nQuoted (repr : PStr → PStr) (k : NElem) (u : PStr) : PStr := if isContainerN k then u else repr u

mutual
/-- `el.u`; `repr` is `decode_repr` (util/base.py:13-21) [schema/containers.py:393-398, 879-887, schema/compound.py:147-149, 327-330] -/
def nText (repr : PStr → PStr) : NElem → PStr
  | .scalar _ st => st.u
  | .dict _ ks => '{' :: pyJoin [',', ' '] (nPairTexts repr ks) ++ ['}']
  | .list _ ks => '[' :: pyJoin [',', ' '] (nTexts repr ks) ++ [']']
  | .array _ ks => '[' :: pyJoin [',', ' '] (nTexts repr ks) ++ [']']
  | .compound _ u _ _ => u
  | .joined _ t _ => t
  | .absent => []
/-- the texts of a Mapping's items [schema/containers.py:882-887] -/
def nPairTexts (repr : PStr → PStr) : List NElem → List PStr
  | [] => []
  | k :: ks =>
    if k.present then (repr ((nName k).getD []) ++ ':' :: ' ' :: nQuoted repr k (nText repr k)) :: nPairTexts repr ks
    else nPairTexts repr ks
/-- the texts of a Sequence's members [schema/containers.py:395-398] -/
def nTexts (repr : PStr → PStr) : List NElem → List PStr
  | [] => []
  | k :: ks => nQuoted repr k (nText repr k) :: nTexts repr ks
end

/-- a validator that reads nothing but the value, the text and the number of children of its element, as all those of the package do that do not look at other
elements or change the element [validation/scalars.py:7-510, validation/containers.py:109-289, validation/network.py:73-290] -/
def richReadingRule (repr : PStr → PStr) (f : PyVal → PStr → Nat → Except PyErr (Option PStr)) (noter : NElem → Pos → Noter) : RichRule where
  decide e p := match nElemAt e p with
    | some k => f (nValue k) (nText repr k) ((k.kids.filter NElem.present).length)
    | .none => .ok .none
  noter := noter

/-- `element.find(path, strict=strict)` for a path expression in text, as in Model/TreeRules.lean [schema/base.py:525-528, schema/paths.py:51-93] -/
def richFind [Runtime] (e : NElem) (strict : Bool) (n : Node) (path : PStr) : Except PyErr (List Node) :=
  match tokenize path with
  | .error er => .error er
  | .ok ops => (evalLoop (richGraph e) strict ((elemCount (shape e) + 1) ^ ops.length) [(ops, n)] []).getD (.error .runtime)

/-- `element.find(path, single=True)` [schema/base.py:525-536] -/
def richFindOne [Runtime] (e : NElem) (n : Node) (path : PStr) : Except PyErr (Option Node) :=
  match richFind e true n path with
  | .error er => .error er
  | .ok ns => findSingle true ns

/-- an attribute of what `find` has found [validation/scalars.py:602, 614, schema/containers.py:419-425] -/
def richAttrOfFound {V : Type} (e : NElem) (attr : NElem → V) : Option Node → Except PyErr V
  | .none => .error .attribute
  | some n => .ok (attr ((nElemAt e n.pos).getD .absent))

/-- the label of what `find` has found [validation/scalars.py:570-571] -/
def richLabelOfFound (label : NElem → Node → Option PStr) (e : NElem) : Option Node → Option PStr
  | .none => .none
  | some n => label e n

/-- `MapEqual.validate` with a `transform` that gets an attribute, as in Model/TreeRules.lean [validation/scalars.py:564-573] -/
def richFieldsEqual [Runtime] {V : Type} (attr : NElem → V) (eq : V → V → Bool) (paths : List PStr) (label : NElem → Node → Option PStr) (e : NElem)
    (p : Pos) : Except PyErr (Option PStr) :=
  match mapExcept (richFindOne e ⟨p, false⟩) paths with
  | .error er => .error er
  | .ok elements => match mapEqual (richFindOne e ⟨p, false⟩) (richAttrOfFound e attr) eq paths with
    | .error er => .error er
    | .ok .none => .ok .none
    | .ok (some key) =>
      if elements.dropLast.contains .none then .error .attribute
      else match equalLabels (elements.map (richLabelOfFound label e)) with
        | .error er => .error er
        | .ok _ => if elements.getLast? = some .none then .error .attribute else .ok (some key)

/-- `ValuesEqual(*paths)` on an element of the tree [validation/scalars.py:576-602, 564-573] -/
def richValuesEqual [Runtime] (paths : List PStr) (label : NElem → Node → Option PStr) (noter : NElem → Pos → Noter) : RichRule where
  decide e p := richFieldsEqual nValue pyEq paths label e p
  noter := noter

/-- `UnisEqual(*paths)` on an element of the tree [validation/scalars.py:605-617, 564-573] -/
def richUnisEqual [Runtime] (repr : PStr → PStr) (paths : List PStr) (label : NElem → Node → Option PStr) (noter : NElem → Pos → Noter) : RichRule where
  decide e p := richFieldsEqual (nText repr) (· == ·) paths label e p
  noter := noter

/-- `el == other` for two elements [schema/base.py:346-350] -/
def nEq (repr : PStr → PStr) (a b : NElem) : Bool := pyEq (nValue a) (nValue b) && nText repr a == nText repr b

/-- `NotDuplicated()` on an element of the tree, with the default comparator `operator.eq` [validation/containers.py:80-106, schema/base.py:346-350] -/
def richNotDuplicated (repr : PStr → PStr) (noter : NElem → Pos → Noter) : RichRule where
  decide e p := match notDuplicated (fun a b => .ok (nEq repr ((nElemAt e a.pos).getD .absent) ((nElemAt e b.pos).getD .absent)))
      ⟨p, false⟩ (siblingNodes (shape e) p) with
    | .error er => .error er
    | .ok .none => .ok .none
    | .ok (some _) => .ok (some "failure".toList)
  noter := noter

end Flatland
