import Verif.Model.FormValidation
/-!
The validators that look around in the tree – NotDuplicated at the siblings, ValuesEqual and UnisEqual at fields found by paths – as
validators of a whole form (Model/FormValidation.lean).
-/
namespace Flatland
open Flatland.Spec (elemAt Pos)

mutual
/-- the number of elements of a tree [no code: bounds the work of a path expression] -/
def elemCount : Elem → Nat
  | .dict _ ks | .list _ ks | .array _ ks => elemCountAll ks + 1
  | _ => 1
/-- see `elemCount` [no code] -/
def elemCountAll : List Elem → Nat
  | [] => 0
  | k :: ks => elemCount k + elemCountAll ks
end

/-- `element.find(path, strict=strict)` for a path expression in text; the number bounds the contexts the evaluator goes through, and is
enough (`C79_find`).  Simplification: the cache of path expressions is not full. [schema/base.py:525-528, schema/paths.py:51-93] -/
def findNodes [Runtime] (e : Elem) (strict : Bool) (n : Node) (path : PStr) : Except PyErr (List Node) :=
  match tokenize path with
  | .error er => .error er
  | .ok ops => (evalLoop (treeGraph e) strict ((elemCount e + 1) ^ ops.length) [(ops, n)] []).getD (.error .runtime)

/-- `element.find(path, single=True)` [schema/base.py:525-536] -/
def findOne [Runtime] (e : Elem) (n : Node) (path : PStr) : Except PyErr (Option Node) :=
  match findNodes e true n path with
  | .error er => .error er
  | .ok ns => findSingle true ns

/-- an attribute of what `find` has found: None has none; a slot has those of the element inside [validation/scalars.py:602, 614, schema/containers.py:419-425] -/
def attrOfFound {V : Type} (e : Elem) (attr : Elem → V) : Option Node → Except PyErr V
  | .none => .error .attribute
  | some n => .ok (attr ((elemAt e n.pos).getD .absent))

/-- the label of what `find` has found; `label` gives those of the elements [validation/scalars.py:570-571] -/
def labelOfFound (label : Elem → Node → Option PStr) (e : Elem) : Option Node → Option PStr
  | .none => .none
  | some n => label e n

/-- `MapEqual.validate` with a `transform` that gets an attribute.  In the message None has no `label` (AttributeError, raised while the
labels are collected, before the join), and a label that is None cannot be joined. [validation/scalars.py:564-573] -/
def fieldsEqual [Runtime] {V : Type} (attr : Elem → V) (eq : V → V → Bool) (paths : List PStr) (label : Elem → Node → Option PStr) (e : Elem)
    (p : Pos) : Except PyErr (Option PStr) :=
  match mapExcept (findOne e ⟨p, false⟩) paths with
  | .error er => .error er
  | .ok elements => match mapEqual (findOne e ⟨p, false⟩) (attrOfFound e attr) eq paths with
    | .error er => .error er
    | .ok .none => .ok .none
    | .ok (some key) =>
      if elements.dropLast.contains .none then .error .attribute
      else match equalLabels (elements.map (labelOfFound label e)) with
        | .error er => .error er
        | .ok _ => if elements.getLast? = some .none then .error .attribute else .ok (some key)

/-- `ValuesEqual(*paths)` on an element of the tree [validation/scalars.py:576-602, 564-573] -/
def valuesEqualRule [Runtime] (paths : List PStr) (label : Elem → Node → Option PStr) (noter : Elem → Pos → Noter) : FormRule where
  decide e p := fieldsEqual elemValue pyEq paths label e p
  noter := noter

/-- `UnisEqual(*paths)` on an element of the tree [validation/scalars.py:605-617, 564-573] -/
def unisEqualRule [Runtime] (repr : PStr → PStr) (paths : List PStr) (label : Elem → Node → Option PStr) (noter : Elem → Pos → Noter) : FormRule where
  decide e p := fieldsEqual (elemU repr) (· == ·) paths label e p
  noter := noter

/-- a validator that reads nothing but the value and the text of its element, as IsEmail, URLValidator and HTTPURLValidator do
[validation/network.py:73-106, 168-190, 257-290] -/
def readingRule (repr : PStr → PStr) (f : PyVal → PStr → Except PyErr (Option PStr)) (noter : Elem → Pos → Noter) : FormRule where
  decide e p := match elemAt e p with
    | some k => f (elemValue k) (elemU repr k)
    | .none => .ok .none
  noter := noter

/-- the children of the container of an element: of its parent, or of the parent of the slot it is in [validation/containers.py:91-97] -/
def siblingNodes (e : Elem) (p : Pos) : Option (List Node) :=
  match parentNode e ⟨p, false⟩ with
  | .none => .none
  | some c => if c.slot then (parentNode e c).map (nodeChildren e) else some (nodeChildren e c)

/-- `NotDuplicated(comparator=…)` on an element of the tree.  Simplification: the comparator looks at the two elements, not around in the
tree. [validation/containers.py:80-106] -/
def notDuplicatedRule (comparator : Elem → Elem → Except PyErr Bool) (noter : Elem → Pos → Noter) : FormRule where
  decide e p := match notDuplicated (fun a b => comparator ((elemAt e a.pos).getD .absent) ((elemAt e b.pos).getD .absent))
      ⟨p, false⟩ (siblingNodes e p) with
    | .error er => .error er
    | .ok .none => .ok .none
    | .ok (some _) => .ok (some "failure".toList)
  noter := noter

/-- the default comparator, `operator.eq` [validation/containers.py:81, schema/base.py:360-378] -/
def sameElement (repr : PStr → PStr) (a b : Elem) : Except PyErr Bool := .ok (elemEq repr a b)

end Flatland
