import Verif.Model.Paths
import Verif.Model.PyList
import Verif.Spec.Tree
/-
Model of navigation between the elements of one tree: parent, root, children, child lookup, `fq_name` and `el`
(flatland/schema/base.py:380-605).

An element object is identified by its position in the tree (child numbers from the root down, `Spec.elemAt`); the hidden
`ListSlot` between a List and its member (flatland/schema/containers.py:401-428) has the member's position and `slot = true`.
-/
namespace Flatland
open Flatland.Spec (elemAt Pos)

/-- an element object, or the slot around a List member [schema/base.py:63, schema/containers.py:401] -/
structure Node where
  pos : Pos
  slot : Bool := false
  deriving DecidableEq, Repr

/-- Is the node there?  Slots exist around List members only. [schema/containers.py:401-417] -/
def Node.valid (e : Elem) (n : Node) : Bool :=
  (elemAt e n.pos).isSome && (!n.slot ||
    match elemAt e n.pos.dropLast with
    | some (.list ..) => !n.pos.isEmpty
    | _ => false)

/-- `.parent` (base.py:133-138 and the `parent=` arguments in containers.py:294, 407-411, 466-470, 776):
the parent of a List member is its slot, the slot's parent the List. -/
def parentNode (e : Elem) (n : Node) : Option Node :=
  if n.valid e = false ∨ n.pos = [] then .none
  else if n.slot then some ⟨n.pos.dropLast, false⟩
  else match elemAt e n.pos.dropLast with
    | some (.list ..) => some ⟨n.pos, true⟩
    | _ => some ⟨n.pos.dropLast, false⟩

/-- the loop of `parents` (base.py:388-395): nearest first.  The number bounds the steps. -/
def parentsLoop (e : Elem) : Nat → Node → List Node
  | 0, _ => []
  | f + 1, n => match parentNode e n with
    | .none => []
    | some p => p :: parentsLoop e f p

/-- `parents`; at most two steps per level. [schema/base.py:388-395] -/
def parents (e : Elem) (n : Node) : List Node := parentsLoop e (2 * n.pos.length) n

/-- `.root` (base.py:380-386) -/
def rootNode (e : Elem) (n : Node) : Node := (parents e n).getLast?.getD n

/-- `.name`; a slot is named by its index (containers.py:466-470) -/
def nodeName (e : Elem) (n : Node) : Option PStr :=
  if n.slot then n.pos.getLast?.map decimal
  else match elemAt e n.pos with
    | some k => k.name
    | .none => .none

/-- truth value: Scalar.__bool__ (scalars.py:134-136), otherwise `len()` of the dict or list; slots are plain objects -/
def nodeTruthy [Runtime] (e : Elem) (n : Node) : Bool :=
  if n.slot then true
  else match elemAt e n.pos with
    | some (.scalar _ st) => scalarBool st
    | some k => k.kids.any Elem.present
    | .none => false

/-- `_index(name)`: Scalar (scalars.py:120-121), Mapping (containers.py:877-878), Sequence (containers.py:282-287),
Element/ListSlot (base.py:592-594).  (Field names of a Mapping are distinct.) -/
def nodeIndex [Runtime] (e : Elem) (n : Node) (name : Option PStr) : Except PyErr Node :=
  if n.slot then .error .notImplemented
  else match elemAt e n.pos with
    | some (.dict _ ks) => match ks.findIdx? fun k => k.present && k.name == name with
      | some i => .ok ⟨n.pos ++ [i], false⟩
      | .none => .error .key
    | some (.list _ ks) | some (.array _ ks) => match name with
      | .none => .error .type
      | some s => match pyInt s with
        | .none => .error .index
        | some i => match pyIndex ks.length i with
          | .none => .error .index
          | some j => .ok ⟨n.pos ++ [j], false⟩
    | _ => .error .index

/-- `.children` (base.py:402-405, containers.py:274-276, 544-546, 809-812); slots have none -/
def nodeChildren (e : Elem) (n : Node) : List Node :=
  if n.slot then []
  else match elemAt e n.pos with
    | some k => (List.range k.kids.length).filterMap fun i => match k.kids[i]? with
      | some c => if c.present then some ⟨n.pos ++ [i], false⟩ else .none
      | .none => .none
    | .none => []

/-- the element tree as seen by path expressions [schema/paths.py:57-93, schema/base.py:380-405] -/
def treeGraph [Runtime] (e : Elem) : Graph Node where
  root := rootNode e
  parent := parentNode e
  truthy := nodeTruthy e
  index := nodeIndex e
  children := nodeChildren e

/-! ### fq_name, base.py:420-479 -/

/-- the loop over the path (base.py:460-478): a slot masks the name of the element inside it -/
def fqParts (e : Elem) : List Node → Option PStr → List (Option PStr)
  | [], _ => []
  | n :: ns, mask =>
    if n.slot then fqParts e ns (nodeName e n)
    else match mask with
      | some (c :: cs) => some (c :: cs) :: fqParts e ns .none
      | _ => nodeName e n :: fqParts e ns mask

/-- `sep.join(parts)`: TypeError for a part that is None [Python str.join; used at schema/base.py:479] -/
def joinParts (sep : PStr) (parts : List (Option PStr)) : Except PyErr PStr :=
  if parts.all Option.isSome then .ok (pyJoin sep (parts.filterMap id)) else .error .type

/-- `fq_name(sep)` [schema/base.py:457-479] -/
def fqName (e : Elem) (sep : PStr) (n : Node) : Except PyErr PStr :=
  match parentNode e n with
  | .none => .ok sep
  | some _ => match joinParts sep (fqParts e ((parents e n).dropLast.reverse ++ [n]) .none) with
    | .ok t => .ok (sep ++ t)
    | .error er => .error er

/-! ### el, base.py:538-605 -/

/-- `_parse_element_path(path, sep)` for text: starts at the root?, and the names [schema/base.py:597-609] -/
def parseElPath (path sep : PStr) : Except PyErr (Bool × List PStr) :=
  if path = sep then .ok (true, [])
  else if sep = [] then .error .value
  else if startsWith path sep then .ok (true, pySplit sep (path.drop sep.length))
  else .ok (false, pySplit sep path)

/-- the loop of `el` (base.py:585-587) -/
def elWalk [Runtime] (e : Elem) : List PStr → Node → Except PyErr Node
  | [], n => .ok n
  | x :: xs, n => match nodeIndex e n (some x) with
    | .ok c => elWalk e xs c
    | .error er => .error er

/-- `element.el(path, sep)`: LookupErrors become KeyErrors [schema/base.py:579-590] -/
def elPath [Runtime] (e : Elem) (start : Node) (path sep : PStr) : Except PyErr Node :=
  match parseElPath path sep with
  | .error er => .error er
  | .ok (abs, names) => match elWalk e names (if abs then rootNode e start else start) with
    | .ok n => .ok n
    | .error er => .error (if er = .key ∨ er = .index ∨ er = .lookup then .key else er)

end Flatland
