import Verif.Model.PyList
import Verif.Model.Scalars
/-
Model of the mutators of List, Array and other Sequences (flatland/schema/containers.py:139-546).

The members are elements of some class; the model is generic in their representation `E` and in the plain values `V` handed to
the operations.  An operation yields the new content and what it returned or raised.
Simplifications: an element object is not also a member elsewhere (appending an element that already is in another container
re-parents it), and user code called from inside an operation (validation hooks, `__eq__` of native values, key functions) does
not modify the sequence.
-/
namespace Flatland

/-- an argument of a list operation: a plain value, or an element [schema/containers.py:296, 457-464] -/
inductive Arg (V E : Type)
  | val (v : V)
  | el (e : E)

/-- the member class: `member_schema()`, `member_schema(value)`, `member.set(value)` and `==` between elements (base.py:346-350) -/
structure MemberClass (V E : Type) where
  blank : E
  make : V → Except PyErr E
  set : E → Arg V E → E × Except PyErr Bool
  eq : E → E → Bool

/-- an iterable: the items it yields and how it ends (`none`: normally) [Python iterators; used at schema/containers.py:308, 326, 481, 494] -/
structure Iter (V E : Type) where
  items : List (Arg V E)
  fails : Option PyErr := none

/-- Outcome of an operation on a sequence [schema/containers.py:289-387, 477-546] -/
abbrev SeqOut (S R : Type) := S × Except PyErr R

variable {V E : Type}

/-- `_as_element(value)` (containers.py:457-464); the same test in Sequence.append etc. (containers.py:296, 318, 328, 334, ...) -/
def asElement (c : MemberClass V E) : Arg V E → Except PyErr E
  | .val v => c.make v
  | .el e => .ok e

/-- all items of an iterable as elements (a list comprehension, nothing is kept when it raises) [schema/containers.py:494] -/
def asElements (c : MemberClass V E) : List (Arg V E) → Except PyErr (List E)
  | [] => .ok []
  | a :: as => match asElement c a with
    | .error er => .error er
    | .ok e => match asElements c as with
      | .error er => .error er
      | .ok es => .ok (e :: es)

/-- an iterable consumed by a comprehension [schema/containers.py:494] -/
def iterElements (c : MemberClass V E) (it : Iter V E) : Except PyErr (List E) :=
  match asElements c it.items with
  | .error er => .error er
  | .ok es => match it.fails with
    | some er => .error er
    | .none => .ok es

/-! ### List, containers.py:431-632 -/

/-- `ListSlot` (containers.py:401-428): a name and the wrapped element -/
structure LSlot (E : Type) where
  name : PStr
  elem : E

/-- what the underlying Python list of a List holds -/
abbrev Slots (E : Type) := List (LSlot E)

/-- the members, as seen from outside (containers.py:504-506 `__iter__`, 544-546 `children`) -/
def members (st : Slots E) : List E := st.map LSlot.elem

/-- `_new_slot(value)` (containers.py:466-470): named by the current length -/
def newSlot (st : Slots E) (e : E) : LSlot E := ⟨decimal st.length, e⟩

/-- the loop of `_renumber` (containers.py:540-542) -/
def renumberFrom : Nat → Slots E → Slots E
  | _, [] => []
  | i, s :: ss => ⟨decimal i, s.elem⟩ :: renumberFrom (i + 1) ss

/-- `_renumber()` [schema/containers.py:540-542] -/
def renumber (st : Slots E) : Slots E := renumberFrom 0 st

/-- `append(value)` (containers.py:477-478) -/
def listAppend (c : MemberClass V E) (st : Slots E) (a : Arg V E) : SeqOut (Slots E) Unit :=
  match asElement c a with
  | .error er => (st, .error er)
  | .ok e => (st ++ [newSlot st e], .ok ())

/-- the loop of `extend` (containers.py:480-482): items already appended stay when a later one raises -/
def listExtendLoop (c : MemberClass V E) : Slots E → List (Arg V E) → SeqOut (Slots E) Unit
  | st, [] => (st, .ok ())
  | st, a :: as => match listAppend c st a with
    | (st', .ok ()) => listExtendLoop c st' as
    | (st', .error er) => (st', .error er)

/-- `extend(iterable)` [schema/containers.py:480-482] -/
def listExtend (c : MemberClass V E) (st : Slots E) (it : Iter V E) : SeqOut (Slots E) Unit :=
  match listExtendLoop c st it.items with
  | (st', .error er) => (st', .error er)
  | (st', .ok ()) => match it.fails with
    | some er => (st', .error er)
    | .none => (st', .ok ())

/-- `lst[i]` (containers.py:484-487) -/
def listGet (st : Slots E) (i : Int) : Except PyErr E :=
  match pyIndex st.length i with
  | .none => .error .index
  | some j => match st[j]? with
    | some s => .ok s.elem
    | .none => .error .index

/-- `lst[i] = value` (containers.py:497-499): the member that is there is `set` (its return value is dropped) -/
def listSetItem (c : MemberClass V E) (st : Slots E) (i : Int) (a : Arg V E) : SeqOut (Slots E) Unit :=
  match pyIndex st.length i with
  | .none => (st, .error .index)
  | some j => match st[j]? with
    | .none => (st, .error .index)
    | some s => match c.set s.elem a with
      | (e', .ok _) => (st.set j ⟨s.name, e'⟩, .ok ())
      | (e', .error er) => (st.set j ⟨s.name, e'⟩, .error er)

/-- `lst[a:b:c] = iterable` (containers.py:493-496) -/
def listSetSlice (c : MemberClass V E) (st : Slots E) (a b s : Option Int) (it : Iter V E) : SeqOut (Slots E) Unit :=
  match iterElements c it with
  | .error er => (st, .error er)
  | .ok es => match pySetSlice st a b s (es.map (newSlot st)) with
    | .error er => (st, .error er)
    | .ok st' => (renumber st', .ok ())

/-- `del lst[i]` (containers.py:508-512) -/
def listDelItem (st : Slots E) (i : Int) : SeqOut (Slots E) Unit :=
  match pyIndex st.length i with
  | .none => (st, .error .index)
  | some j => (renumber (st.eraseIdx j), .ok ())

/-- `del lst[a:b:c]` (containers.py:508-512) -/
def listDelSlice (st : Slots E) (a b s : Option Int) : SeqOut (Slots E) Unit :=
  match pyDelSlice st a b s with
  | .error er => (st, .error er)
  | .ok st' => (renumber st', .ok ())

/-- `lst.pop(i)` (containers.py:517-521): returns the slot, not the member -/
def listPop (st : Slots E) (i : Int) : SeqOut (Slots E) (LSlot E) :=
  match pyIndex st.length i with
  | .none => (st, .error .index)
  | some j => match st[j]? with
    | .none => (st, .error .index)
    | some s => (renumber (st.eraseIdx j), .ok s)

/-- `lst.insert(i, value)` (containers.py:523-525) -/
def listInsert (c : MemberClass V E) (st : Slots E) (i : Int) (a : Arg V E) : SeqOut (Slots E) Unit :=
  match asElement c a with
  | .error er => (st, .error er)
  | .ok e => (renumber (pyInsert st i (newSlot st e)), .ok ())

/-- `lst.remove(value)` (containers.py:527-529): slots compare to the element by value and u (base.py:346-350) -/
def listRemove (c : MemberClass V E) (st : Slots E) (a : Arg V E) : SeqOut (Slots E) Unit :=
  match asElement c a with
  | .error er => (st, .error er)
  | .ok e => match pyRemove (fun s => c.eq s.elem e) st with
    | .none => (st, .error .value)
    | some st' => (renumber st', .ok ())

/-- How a call of the builtin `list.sort` goes: it finishes; the key function raises (the list is unchanged); or a comparison
raises, which leaves the list in some order, here given from outside. [Python list.sort; used at schema/containers.py:533] -/
inductive SortRun (α κ : Type)
  | done (lt : κ → κ → Bool) (key : α → κ) (reverse : Bool)
  | keyFails (er : PyErr)
  | compareFails (er : PyErr) (left : List α → List α)

/-- `lst.sort(key, reverse)` (containers.py:531-534); the key function is given the slots -/
def listSort {κ} (st : Slots E) : SortRun (LSlot E) κ → SeqOut (Slots E) Unit
  | .done lt key rev => (renumber (pySort lt key rev st), .ok ())
  | .keyFails er => (st, .error er)
  | .compareFails er left => (left st, .error er)

/-- `lst.reverse()` (containers.py:536-538) -/
def listReverse (st : Slots E) : SeqOut (Slots E) Unit := (renumber st.reverse, .ok ())

/-- Members for `set` (containers.py:253-258): a new member for each item, `converted` accumulated. -/
def setMembers (c : MemberClass V E) : List (Arg V E) → Except PyErr (List E × Bool)
  | [] => .ok ([], true)
  | a :: as => match c.set c.blank a with
    | (_, .error er) => .error er
    | (e, .ok b) => match setMembers c as with
      | .error er => .error er
      | .ok (es, b') => .ok (e :: es, b && b')

/-- `for v in iterable` …; `none` is an object that is not iterable [schema/containers.py:255-258] -/
def setItems (c : MemberClass V E) : Option (Iter V E) → Except PyErr (List E × Bool)
  | .none => .error .type
  | some it => match setMembers c it.items with
    | .error er => .error er
    | .ok r => match it.fails with
      | some er => .error er
      | .none => .ok r

/-- `Sequence.set(iterable)` (containers.py:229-263) on a List -/
def listSet (c : MemberClass V E) (st : Slots E) (it : Option (Iter V E)) : SeqOut (Slots E) Bool :=
  let emptied := (listDelSlice st .none .none .none).1
  match setItems c it with
  | .error .type => (emptied, .ok false)
  | .error er => (emptied, .error er)
  | .ok (es, b) => ((listExtendLoop c emptied (es.map .el)).1, .ok b)

/-- Filling an emptied List with members built one by one, as `_set_flat` and `set_default` do (containers.py:583-601,
617-624): each gets a new slot appended.  What the members are is modelled in Model/Tree.lean and Model/Values.lean. -/
def listFill : Slots E → List E → Slots E
  | st, [] => st
  | st, e :: es => listFill (st ++ [newSlot st e]) es

/-- `_index(name)` (containers.py:282-287) -/
def listIndex [Runtime] (st : Slots E) (name : PStr) : Except PyErr E :=
  match pyInt name with
  | .none => .error .index
  | some i => listGet st i

/-- a mutating operation of List [schema/containers.py:477-546] -/
inductive ListOp (V E κ : Type)
  | append (a : Arg V E)
  | extend (it : Iter V E)
  | insert (i : Int) (a : Arg V E)
  | setItem (i : Int) (a : Arg V E)
  | setSlice (a b s : Option Int) (it : Iter V E)
  | delItem (i : Int)
  | delSlice (a b s : Option Int)
  | pop (i : Int)
  | remove (a : Arg V E)
  | sort (r : SortRun (LSlot E) κ)
  | reverse
  | set (it : Option (Iter V E))
  | fill (es : List E)

/-- the content after an operation, successful or not [schema/containers.py:477-546] -/
def listStep {κ} (c : MemberClass V E) (st : Slots E) : ListOp V E κ → Slots E
  | .append a => (listAppend c st a).1
  | .extend it => (listExtend c st it).1
  | .insert i a => (listInsert c st i a).1
  | .setItem i a => (listSetItem c st i a).1
  | .setSlice a b s it => (listSetSlice c st a b s it).1
  | .delItem i => (listDelItem st i).1
  | .delSlice a b s => (listDelSlice st a b s).1
  | .pop i => (listPop st i).1
  | .remove a => (listRemove c st a).1
  | .sort r => (listSort st r).1
  | .reverse => (listReverse st).1
  | .set it => (listSet c st it).1
  | .fill es => listFill (listDelSlice st .none .none .none).1 es

/-! ### inherited operators that are not overridden -/

/-- `lst += iterable`: `list.__iadd__` is inherited, so the items themselves (not slots) are put into the list.
An entry that is no slot has neither `.element` nor an index name. [Python list; not overridden in schema/containers.py:431-632] -/
inductive RawEntry (V E : Type)
  | slot (s : LSlot E)
  | item (a : Arg V E)

/-- `list.__iadd__` on a List [Python list; not overridden in schema/containers.py:431-632] -/
def listIAdd (st : Slots E) (items : List (Arg V E)) : List (RawEntry V E) := st.map .slot ++ items.map .item

/-- iterating a List (containers.py:504-506): AttributeError at an entry without `.element` -/
def rawMembers : List (RawEntry V E) → Except PyErr (List E)
  | [] => .ok []
  | .slot s :: rest => (rawMembers rest).map (s.elem :: ·)
  | .item _ :: _ => .error .attribute

/-! ### Array and other Sequences without slots, containers.py:289-387 -/

/-- `append(value)` (containers.py:289-299) -/
def seqAppend (c : MemberClass V E) (st : List E) (a : Arg V E) : SeqOut (List E) Unit :=
  match asElement c a with
  | .error er => (st, .error er)
  | .ok e => (st ++ [e], .ok ())

/-- the loop of `extend` (containers.py:301-309) -/
def seqExtendLoop (c : MemberClass V E) : List E → List (Arg V E) → SeqOut (List E) Unit
  | st, [] => (st, .ok ())
  | st, a :: as => match seqAppend c st a with
    | (st', .ok ()) => seqExtendLoop c st' as
    | (st', .error er) => (st', .error er)

/-- `extend(iterable)` [schema/containers.py:301-309] -/
def seqExtend (c : MemberClass V E) (st : List E) (it : Iter V E) : SeqOut (List E) Unit :=
  match seqExtendLoop c st it.items with
  | (st', .error er) => (st', .error er)
  | (st', .ok ()) => match it.fails with
    | some er => (st', .error er)
    | .none => (st', .ok ())

/-- `insert(i, value)` (containers.py:311-321) -/
def seqInsert (c : MemberClass V E) (st : List E) (i : Int) (a : Arg V E) : SeqOut (List E) Unit :=
  match asElement c a with
  | .error er => (st, .error er)
  | .ok e => (pyInsert st i e, .ok ())

/-- `seq[i] = value` (containers.py:332-336): the member is replaced -/
def seqSetItem (c : MemberClass V E) (st : List E) (i : Int) (a : Arg V E) : SeqOut (List E) Unit :=
  match asElement c a with
  | .error er => (st, .error er)
  | .ok e => match pyIndex st.length i with
    | .none => (st, .error .index)
    | some j => (st.set j e, .ok ())

/-- `seq[a:b:c] = iterable` (containers.py:324-331) -/
def seqSetSlice (c : MemberClass V E) (st : List E) (a b s : Option Int) (it : Iter V E) : SeqOut (List E) Unit :=
  match iterElements c it with
  | .error er => (st, .error er)
  | .ok es => match pySetSlice st a b s es with
    | .error er => (st, .error er)
    | .ok st' => (st', .ok ())

/-- `remove(value)` (containers.py:341-351) -/
def seqRemove (c : MemberClass V E) (st : List E) (a : Arg V E) : SeqOut (List E) Unit :=
  match asElement c a with
  | .error er => (st, .error er)
  | .ok e => match pyRemove (fun m => c.eq m e) st with
    | .none => (st, .error .value)
    | some st' => (st', .ok ())

/-- `index(value)` (containers.py:353-363) -/
def seqIndexOf (c : MemberClass V E) (st : List E) (a : Arg V E) : Except PyErr Nat :=
  match asElement c a with
  | .error er => .error er
  | .ok e => match st.findIdx? (fun m => c.eq m e) with
    | .none => .error .value
    | some i => .ok i

/-- `count(value)` (containers.py:365-375) -/
def seqCount (c : MemberClass V E) (st : List E) (a : Arg V E) : Except PyErr Nat :=
  match asElement c a with
  | .error er => .error er
  | .ok e => .ok (st.countP fun m => c.eq m e)

/-- `value in seq` (containers.py:377-387) -/
def seqContains (c : MemberClass V E) (st : List E) (a : Arg V E) : Except PyErr Bool :=
  match asElement c a with
  | .error er => .error er
  | .ok e => .ok (st.any fun m => c.eq m e)

/-- `Sequence.set(iterable)` (containers.py:229-263) on an Array -/
def seqSet (c : MemberClass V E) (st : List E) (it : Option (Iter V E)) : SeqOut (List E) Bool :=
  let emptied := match pyDelSlice st .none .none .none with
    | .ok st' => st'
    | .error _ => st
  match setItems c it with
  | .error .type => (emptied, .ok false)
  | .error er => (emptied, .error er)
  | .ok (es, b) => ((seqExtendLoop c emptied (es.map .el)).1, .ok b)

/-! ### scalar members, and MultiValue (containers.py:686-734) -/

/-- a Scalar class as member class; `asObj` is what `set` sees of an element passed as a value (scalars.py:53-94) -/
def scalarMember [Runtime] (t : ScalarType) (asObj : ScalarState → PyVal) : MemberClass PyVal ScalarState where
  blank := .fresh
  make v := match scalarSet t .fresh v with
    | (st, .ok _) => .ok st
    | (_, .error er) => .error er
  set st
    | .val v => scalarSet t st v
    | .el e => scalarSet t st (asObj e)
  eq a b := pyEq a.value b.value && a.u == b.u

/-- `MultiValue.u` (containers.py:702-707) -/
def mvU : List ScalarState → PStr
  | [] => []
  | m :: _ => m.u

/-- `MultiValue.value` (containers.py:717-722) -/
def mvValue : List ScalarState → PyVal
  | [] => .none
  | m :: _ => m.value

/-- `if not self: self.append(None)` (containers.py:710-711, 725-726) -/
def mvEnsure (c : MemberClass PyVal ScalarState) : List ScalarState → SeqOut (List ScalarState) Unit
  | [] => seqAppend c [] (.val .none)
  | m :: ms => (m :: ms, .ok ())

/-- `self[0].x = …`: IndexError when there is no first member [schema/containers.py:708-726] -/
def mvFirst (f : ScalarState → ScalarState) : List ScalarState → SeqOut (List ScalarState) Unit
  | [] => ([], .error .index)
  | m :: ms => (f m :: ms, .ok ())

/-- assigning `MultiValue.u` (containers.py:709-712) -/
def mvSetU (c : MemberClass PyVal ScalarState) (st : List ScalarState) (u : PStr) : SeqOut (List ScalarState) Unit :=
  match mvEnsure c st with
  | (st', .error er) => (st', .error er)
  | (st', .ok ()) => mvFirst (fun m => { m with u := u }) st'

/-- assigning `MultiValue.value` (containers.py:724-727) -/
def mvSetValue (c : MemberClass PyVal ScalarState) (st : List ScalarState) (v : PyVal) : SeqOut (List ScalarState) Unit :=
  match mvEnsure c st with
  | (st', .error er) => (st', .error er)
  | (st', .ok ()) => mvFirst (fun m => { m with value := v }) st'

/-- `MultiValue.__bool__` (containers.py:730-733) -/
def mvBool (st : List ScalarState) : Bool := !st.isEmpty

/-- `is_empty` (containers.py:278-280) -/
def seqIsEmpty {E} (st : List E) : Bool := st.isEmpty

end Flatland
