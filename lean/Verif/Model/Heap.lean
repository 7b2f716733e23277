import Verif.Model.PyList
import Verif.Model.Mappings
/-!
Model of the `.parent` links of elements as Python objects with identity: flatland/schema/base.py:130-152, 380-400 and
flatland/schema/containers.py:229-351, 401-546, 752-784, 1141-1218.

A heap is a list of objects, a reference an index into it.  Of an object only its parent and what it contains are described: an Array or
other Sequence contains elements, a List contains slots, a slot one element, a Mapping elements under keys.  Simplifications: names of
slots are left out (Model/ListOps.lean); how a value is turned into an element is a `HShape` (how many members of what kind); the builtin
list operations are those of Model/PyList.lean; no element class overrides the methods.
-/
namespace Flatland

/-- what an object contains [schema/containers.py:139, 401-417, 431, 737; schema/scalars.py:36] -/
inductive Body
  | scalar
  | seq (members : List Nat)
  | list (slots : List Nat)
  | slot (element : Nat)
  | mapping (items : List (PStr × Nat))
  deriving DecidableEq

/-- an Element object: `.parent` [schema/base.py:131, schema/containers.py:415] and what it contains -/
structure Obj where
  parent : Option Nat
  body : Body
  deriving DecidableEq

/-- all objects that were ever made; no code -/
abbrev OHeap := List Obj

/-- `el.parent` [schema/base.py:131] -/
def parentOf (h : OHeap) (r : Nat) : Option Nat := (h[r]?).bind Obj.parent

/-- the content of the object; no code -/
def bodyOf (h : OHeap) (r : Nat) : Body := ((h[r]?).map Obj.body).getD .scalar

/-- `el.parent = p` [schema/containers.py:298, 320, 329, 335, 417, 520, 1157, 1162] -/
def setParent (h : OHeap) (r : Nat) (p : Option Nat) : OHeap := h.modify r fun o => { o with parent := p }

/-- the content of an object is changed; no code -/
def setBody (h : OHeap) (r : Nat) (b : Body) : OHeap := h.modify r fun o => { o with body := b }

/-- a new object: the heap and the reference [schema/base.py:130-152] -/
def allocObj (h : OHeap) (o : Obj) : OHeap × Nat := (h ++ [o], h.length)

/-- the entries of the Python list behind a Sequence [schema/containers.py:139] -/
def entries : Body → List Nat
  | .seq ms => ms
  | .list ss => ss
  | _ => []

/-- the same kind of Sequence with other entries; no code -/
def withEntries : Body → List Nat → Body
  | .seq _, xs => .seq xs
  | .list _, xs => .list xs
  | b, _ => b

/-- the items of a Mapping [schema/containers.py:737] -/
def itemsOf : Body → List (PStr × Nat)
  | .mapping kvs => kvs
  | _ => []

/-- is it a List (its members sit in slots)? [schema/containers.py:431] -/
def isListBody : Body → Bool
  | .list _ => true
  | _ => false

/-- list.append and so on: the entries of the Sequence `c` replaced [schema/containers.py:299, 321, 336, 478, 495, 511, 518, 524] -/
def setEntries (h : OHeap) (c : Nat) (xs : List Nat) : OHeap := setBody h c (withEntries (bodyOf h c) xs)

/-- `element.parent = self` in `append` etc. of Sequence [schema/containers.py:298, 320, 329, 335], or a new slot around the element in a
List (`_new_slot` and `ListSlot.__init__`, schema/containers.py:413-417, 466-470): the heap, and what goes into the Python list -/
def wrap (h : OHeap) (c e : Nat) : OHeap × Nat :=
  if isListBody (bodyOf h c) then
    let (h1, s) := allocObj h ⟨some c, .slot e⟩
    (setParent h1 e (some s), s)
  else (setParent h e (some c), e)

/-- `append(element)` [schema/containers.py:289-299, 477-478] -/
def hAppend (h : OHeap) (c e : Nat) : OHeap :=
  let (h1, x) := wrap h c e
  setEntries h1 c (entries (bodyOf h1 c) ++ [x])

/-- `extend(elements)` [schema/containers.py:301-309, 480-482] -/
def hExtend (h : OHeap) (c : Nat) : List Nat → OHeap
  | [] => h
  | e :: es => hExtend (hAppend h c e) c es

/-- what an element made from a value looks like: one that `set` filled; no code -/
inductive HShape
  | scalar
  | seq (members : List HShape)
  | list (members : List HShape)
  | mapping (fields : List (PStr × HShape))

mutual
/-- `schema(value, parent=p)` [schema/base.py:130-152, schema/containers.py:177-181, 229-263, 743-750, 771-776, 978-1014]: a Sequence's
members are all made first and then given to `extend`; a Mapping's fields are made with `parent=self` -/
def newElem (h : OHeap) (p : Option Nat) : HShape → OHeap × Nat
  | .scalar => allocObj h ⟨p, .scalar⟩
  | .seq ms => let (h1, c) := allocObj h ⟨p, .seq []⟩; let (h2, rs) := newElems h1 ms; (hExtend h2 c rs, c)
  | .list ms => let (h1, c) := allocObj h ⟨p, .list []⟩; let (h2, rs) := newElems h1 ms; (hExtend h2 c rs, c)
  | .mapping fs => let (h1, c) := allocObj h ⟨p, .mapping []⟩; (newFields h1 c fs, c)
/-- the members made for `set` [schema/containers.py:255-258] -/
def newElems (h : OHeap) : List HShape → OHeap × List Nat
  | [] => (h, [])
  | s :: ss => let (h1, r) := newElem h none s; let (h2, rs) := newElems h1 ss; (h2, r :: rs)
/-- `dict.__setitem__(self, key, schema(parent=self))` for each field [schema/containers.py:773-776, 1143-1148] -/
def newFields (h : OHeap) (c : Nat) : List (PStr × HShape) → OHeap
  | [] => h
  | (k, s) :: fs =>
    let (h1, r) := newElem h (some c) s
    newFields (setBody h1 c (.mapping (dictPut (itemsOf (bodyOf h1 c)) k r))) c fs
end

/-- `el.set(value)` on an element that is there: its former content is dropped, the new content made; the object stays the same
[schema/containers.py:229-263, 978-1014; schema/scalars.py:53-94].  The shape is the one `set` gave it. -/
def hFill (h : OHeap) (c : Nat) (s : HShape) : OHeap :=
  match bodyOf h c, s with
  | .seq _, .seq ms => let h1 := setEntries h c []; let (h2, rs) := newElems h1 ms; hExtend h2 c rs
  | .list _, .list ms => let h1 := setEntries h c []; let (h2, rs) := newElems h1 ms; hExtend h2 c rs
  | .mapping _, .mapping fs => newFields (setBody h c (.mapping [])) c fs
  | _, _ => h

/-- what is passed where a member is expected: an element, or a value (`member_schema(value)`, which may raise)
[schema/containers.py:296-297, 318-319, 327-328, 333-334, 457-464] -/
inductive HArg
  | elem (r : Nat)
  | value (s : HShape)
  | raises (er : PyErr)

/-- `value if isinstance(value, Element) else self.member_schema(value)` [schema/containers.py:296-297, 457-464] -/
def hAsElement (h : OHeap) : HArg → OHeap × Except PyErr Nat
  | .elem r => (h, .ok r)
  | .value s => let (h1, r) := newElem h none s; (h1, .ok r)
  | .raises er => (h, .error er)

/-- the entries made for a slice assignment, left to right; those made before an exception stay made
[schema/containers.py:325-331, 494] -/
def hWrapAll (h : OHeap) (c : Nat) : List HArg → OHeap × Except PyErr (List Nat)
  | [] => (h, .ok [])
  | a :: as => match hAsElement h a with
    | (h1, .error er) => (h1, .error er)
    | (h1, .ok e) =>
      let (h2, x) := wrap h1 c e
      match hWrapAll h2 c as with
      | (h3, .error er) => (h3, .error er)
      | (h3, .ok xs) => (h3, .ok (x :: xs))

/-- `extend(iterable)` with elements and values; stops at the first exception [schema/containers.py:301-309, 480-482] -/
def hExtendArgs (h : OHeap) (c : Nat) : List HArg → OHeap × Except PyErr Unit
  | [] => (h, .ok ())
  | a :: as => match hAsElement h a with
    | (h1, .error er) => (h1, .error er)
    | (h1, .ok e) => hExtendArgs (hAppend h1 c e) c as

/-- an operation on the Sequence or Mapping `c`, or `set` on any element [schema/containers.py:229-351, 477-546, 752-784, 1141-1218] -/
inductive HOp
  | create (s : HShape)
  | set (c : Nat) (s : HShape)
  | append (c : Nat) (a : HArg)
  | extend (c : Nat) (as : List HArg)
  | insert (c : Nat) (i : Int) (a : HArg)
  | setItem (c : Nat) (i : Int) (a : HArg)
  | setMember (c : Nat) (i : Int) (s : HShape)
  | setSlice (c : Nat) (a b s : Option Int) (as : List HArg)
  | delItem (c : Nat) (i : Int)
  | delSlice (c : Nat) (a b s : Option Int)
  | pop (c : Nat) (i : Int)
  | remove (c : Nat) (a : HArg) (eq : Nat → Nat → Bool)
  | reverse (c : Nat)
  | sort (c : Nat) (lt : Nat → Nat → Bool) (rev : Bool)
  | put (c : Nat) (key : PStr) (a : HArg)
  | del (c : Nat) (key : PStr)
  | reset (c : Nat) (fields : List (PStr × HShape))

/-- the element behind an entry of a Sequence: `.element` of a slot [schema/containers.py:484-487, 504-506] -/
def entryElem (h : OHeap) (x : Nat) : Nat := match bodyOf h x with
  | .slot e => e
  | _ => x

/-- is the content that of a Sequence? [schema/containers.py:139] -/
def isSeqBody : Body → Bool
  | .seq _ => true
  | .list _ => true
  | _ => false

/-- is the content that of a Mapping? [schema/containers.py:737] -/
def isMapBody : Body → Bool
  | .mapping _ => true
  | _ => false

/-- does the class of the element have this method? `setItem` is the method of a Sequence without slots, `setMember` that of a List
[schema/containers.py:139, 431, 737] -/
def HOp.applies (h : OHeap) : HOp → Bool
  | .create _ => true
  | .set _ _ => true
  | .append c _ => isSeqBody (bodyOf h c)
  | .extend c _ => isSeqBody (bodyOf h c)
  | .insert c _ _ => isSeqBody (bodyOf h c)
  | .setItem c _ _ => isSeqBody (bodyOf h c) && !isListBody (bodyOf h c)
  | .setMember c _ _ => isListBody (bodyOf h c)
  | .setSlice c _ _ _ _ => isSeqBody (bodyOf h c)
  | .delItem c _ => isSeqBody (bodyOf h c)
  | .delSlice c _ _ _ => isSeqBody (bodyOf h c)
  | .pop c _ => isSeqBody (bodyOf h c)
  | .remove c _ _ => isSeqBody (bodyOf h c)
  | .reverse c => isSeqBody (bodyOf h c)
  | .sort c _ _ => isSeqBody (bodyOf h c)
  | .put c _ _ => isMapBody (bodyOf h c)
  | .del c _ => isMapBody (bodyOf h c)
  | .reset c _ => isMapBody (bodyOf h c)

/-- `lst[i]`, the entry of the Python list; IndexError is none [Python] -/
def entryAt (xs : List Nat) (i : Int) : Option Nat := (pyIndex xs.length i).bind fun j => xs[j]?

/-- `seq[i] = value` [schema/containers.py:332-336]: a new element gets its parent, a supplied one does not -/
def hSetItem (h : OHeap) (c : Nat) (i : Int) (e : Nat) (a : HArg) : OHeap × Except PyErr Unit :=
  let h2 := match a with
    | .value _ => setParent h e (some c)
    | _ => h
  match pyIndex (entries (bodyOf h2 c)).length i with
  | .none => (h2, .error .index)
  | some j => (setEntries h2 c ((entries (bodyOf h2 c)).set j e), .ok ())

/-- the heap after an operation the class has, and the exception if there is one.
* `setMember`: List.__setitem__ (497-499) sets the member that is there.
* `pop`: list.pop for a Sequence; List.pop (517-521) takes the parent from the slot.
* `remove`: the first entry equal to the element [341-351, 527-529].
* `put`: SparseDict.__setitem__ (1150-1165); for a key that is there and a value, `self[key].set(value)`, as Mapping.__setitem__ (752-756).
* `del`: SparseDict.__delitem__, pop (1167-1204).  `reset`: `_reset()` (771-776, 1141-1148), also `clear` (1192-1193).
[schema/containers.py:229-351, 477-546, 752-784, 1141-1218] -/
def hDo (h : OHeap) : HOp → OHeap × Except PyErr Unit
  | .create s => ((newElem h none s).1, .ok ())
  | .set c s => (hFill h c s, .ok ())
  | .append c a => match hAsElement h a with
    | (h1, .error er) => (h1, .error er)
    | (h1, .ok e) => (hAppend h1 c e, .ok ())
  | .extend c as => hExtendArgs h c as
  | .insert c i a => match hAsElement h a with
    | (h1, .error er) => (h1, .error er)
    | (h1, .ok e) => let (h2, x) := wrap h1 c e; (setEntries h2 c (pyInsert (entries (bodyOf h2 c)) i x), .ok ())
  | .setItem c i a => match hAsElement h a with
    | (h1, .error er) => (h1, .error er)
    | (h1, .ok e) => hSetItem h1 c i e a
  | .setMember c i s => match entryAt (entries (bodyOf h c)) i with
    | .none => (h, .error .index)
    | some x => (hFill h (entryElem h x) s, .ok ())
  | .setSlice c a b s as => match hWrapAll h c as with
    | (h1, .error er) => (h1, .error er)
    | (h1, .ok xs) => match pySetSlice (entries (bodyOf h1 c)) a b s xs with
      | .error er => (h1, .error er)
      | .ok ys => (setEntries h1 c ys, .ok ())
  | .delItem c i => match pyIndex (entries (bodyOf h c)).length i with
    | .none => (h, .error .index)
    | some j => (setEntries h c ((entries (bodyOf h c)).eraseIdx j), .ok ())
  | .delSlice c a b s => match pyDelSlice (entries (bodyOf h c)) a b s with
    | .error er => (h, .error er)
    | .ok ys => (setEntries h c ys, .ok ())
  | .pop c i => match pyIndex (entries (bodyOf h c)).length i with
    | .none => (h, .error .index)
    | some j =>
      let h1 := setEntries h c ((entries (bodyOf h c)).eraseIdx j)
      (if isListBody (bodyOf h c) then (match (entries (bodyOf h c))[j]? with | some x => setParent h1 x none | .none => h1) else h1, .ok ())
  | .remove c a eq => match hAsElement h a with
    | (h1, .error er) => (h1, .error er)
    | (h1, .ok e) => match pyRemove (fun x => eq (entryElem h1 x) e) (entries (bodyOf h1 c)) with
      | .none => (h1, .error .value)
      | some ys => (setEntries h1 c ys, .ok ())
  | .reverse c => (setEntries h c (entries (bodyOf h c)).reverse, .ok ())
  | .sort c lt rev => (setEntries h c (pySort lt id rev (entries (bodyOf h c))), .ok ())
  | .put c key a => match a with
    | .elem r => let h1 := setParent h r (some c); (setBody h1 c (.mapping (dictPut (itemsOf (bodyOf h1 c)) key r)), .ok ())
    | .value s => match dictGet (itemsOf (bodyOf h c)) key with
      | some r => (hFill h r s, .ok ())
      | .none => let (h1, r) := newElem h (some c) s; (setBody h1 c (.mapping (dictPut (itemsOf (bodyOf h1 c)) key r)), .ok ())
    | .raises er => (h, .error er)
  | .del c key => match dictGet (itemsOf (bodyOf h c)) key with
    | .none => (h, .error .key)
    | some _ => (setBody h c (.mapping (dictDel (itemsOf (bodyOf h c)) key)), .ok ())
  | .reset c fs => (newFields (setBody h c (.mapping [])) c fs, .ok ())

/-- the heap after an operation; AttributeError if the element has no such method [schema/containers.py:229-351, 477-546, 752-784, 1141-1218] -/
def hStep (h : OHeap) (op : HOp) : OHeap × Except PyErr Unit := if op.applies h then hDo h op else (h, .error .attribute)

/-- the heap after a history of operations, each successful or not; no code -/
def hRun : OHeap → List HOp → OHeap
  | h, [] => h
  | h, op :: ops => hRun (hStep h op).1 ops

/-- the loop of `parents` [schema/base.py:388-395]: nearest first; the number bounds the steps -/
def hParents (h : OHeap) : Nat → Nat → List Nat
  | 0, _ => []
  | n + 1, r => match parentOf h r with
    | .none => []
    | some p => p :: hParents h n p

end Flatland
