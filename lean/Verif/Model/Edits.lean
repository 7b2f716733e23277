import Verif.Model.HalfWay
import Verif.Model.Mappings
/-! Calls on any element of a tree: the operations of Model/ListOps.lean (List, Array) and Model/Mappings.lean (Dict, SparseDict), which are
generic in their members, on the trees of Model/Tree.lean, together with those of Model/HalfWay.lean and assignments to the attributes of
scalars.

Simplifications: those of these files; an element put into a container is not also elsewhere; `optional` is that of the class. -/
namespace Flatland

/-- What Python knows about elements and the trees do not tell: `isinstance(x, schema)` (schema/containers.py:1156, 1161), what `set` makes
of an element handed to it as a value (schema/containers.py:756, 1165), `is_empty` (schema/containers.py:1212) and `repr` of texts. -/
structure Objects where
  isInstance : Schema → Elem → Bool
  asValue : Elem → PyVal
  isEmpty : Schema → Elem → Bool
  repr : PStr → PStr

/-- a class as the generic operations use it: `schema()`, `schema(value)`, `el.set(value)`, `==` [schema/base.py:130-153, 346-350, schema/containers.py:457-464] -/
def memberClass [Runtime] (o : Objects) (s : Schema) : MemberClass PyVal Elem where
  blank := fresh s
  make v := match setRun s (fresh s) v with
    | (e, .ok _) => .ok e
    | (_, .error er) => .error er
  set e
    | .val v => setRun s e v
    | .el x => setRun s e (o.asValue x)
  eq := elemEq o.repr

/-- one entry of `field_schema` [schema/containers.py:740, 899-913] -/
def fieldEntry [Runtime] (o : Objects) (f : Schema) : Field (Option PStr) PyVal Elem where
  name := f.name
  optional := f.hdr.optional
  cls := memberClass o f
  isInstance := o.isInstance f
  optionalOf _ := f.hdr.optional
  isEmpty := o.isEmpty f
  setDefault := setDefaultRun f
  fromDefaults := match setDefaultRun f (fresh f) with
    | (e, .ok _) => .ok e
    | (_, .error er) => .error er

/-- the kind of Dict [schema/containers.py:919, 1127-1135] -/
def mapModeOf : DictMode → MapMode
  | .full => .full
  | .sparse => .sparse
  | .sparseRequired => .required

/-- `policy` [schema/containers.py:919-923] -/
def mapPolicyOf : Policy → MapPolicy
  | .strict => .strict
  | .subset => .subset
  | .duck => .duck

/-- A Dict class as the generic operations use it; `set_default` is left to Model/HalfWay.lean, so there is no default here.
[schema/containers.py:740, 919-944] -/
def mapClassOf [Runtime] (o : Objects) (mode : DictMode) (policy : Policy) (fs : List Schema) : MapClass (Option PStr) PyVal Elem where
  fields := fs.map (fieldEntry o)
  mode := mapModeOf mode
  policy := mapPolicyOf policy
  default := .none

/-- the underlying dict of a Dict, from the children aligned with the fields [no code: the same children otherwise arranged] -/
def dictOfKids : List Schema → List Elem → PyDict (Option PStr) Elem
  | f :: fs, k :: ks => if k.present then (f.name, k) :: dictOfKids fs ks else dictOfKids fs ks
  | _, _ => []

/-- and back [no code: the same children otherwise arranged] -/
def kidsOfDict (fs : List Schema) (d : PyDict (Option PStr) Elem) : List Elem := fs.map fun f => (dictGet d f.name).getD .absent

/-- the slots of a List with these members, numbered from `i` [schema/containers.py:466-470, 540-542] -/
def slotsFrom : Nat → List Elem → Slots Elem
  | _, [] => []
  | i, k :: ks => ⟨decimal i, k⟩ :: slotsFrom (i + 1) ks

/-- a mutating operation of an Array: of Sequence (schema/containers.py:289-351) or inherited from `list` -/
inductive SeqOp (V E κ : Type)
  | append (a : Arg V E)
  | extend (it : Iter V E)
  | insert (i : Int) (a : Arg V E)
  | setItem (i : Int) (a : Arg V E)
  | setSlice (a b s : Option Int) (it : Iter V E)
  | remove (a : Arg V E)
  | delItem (i : Int)
  | delSlice (a b s : Option Int)
  | pop (i : Int)
  | reverse
  | sort (r : SortRun E κ)

/-- the members after an operation, successful or not: schema/containers.py:289-351, and of Python's `list` what is inherited -/
def seqStep {V E κ : Type} (c : MemberClass V E) (st : List E) : SeqOp V E κ → List E
  | .append a => (seqAppend c st a).1
  | .extend it => (seqExtend c st it).1
  | .insert i a => (seqInsert c st i a).1
  | .setItem i a => (seqSetItem c st i a).1
  | .setSlice a b s it => (seqSetSlice c st a b s it).1
  | .remove a => (seqRemove c st a).1
  | .delItem i | .pop i => match pyIndex st.length i with
    | .none => st
    | some j => st.eraseIdx j
  | .delSlice a b s => match pyDelSlice st a b s with
    | .error _ => st
    | .ok st' => st'
  | .reverse => st.reverse
  | .sort (.done lt key rev) => pySort lt key rev st
  | .sort (.keyFails _) => st
  | .sort (.compareFails _ left) => left st

/-- a call on an element, or (`assign`) new values for the attributes `raw`, `value` and `u` of a scalar
[schema/base.py:105-120, 677-762, schema/containers.py:289-387, 477-546, 752-866, 978-1014, 1141-1240] -/
inductive EditOp (κ : Type)
  | fill (op : FillOp)
  | assign (st : ScalarState)
  | list (op : ListOp PyVal Elem κ)
  | seq (op : SeqOp PyVal Elem κ)
  | map (op : MapOp (Option PStr) PyVal Elem)

/-- the element after the call, whether it raised or not; an element of another kind has no such method and stays as it is
[schema/base.py:677-762, schema/containers.py:289-387, 477-546, 752-866, 978-1014, 1141-1240] -/
def editHere [Runtime] {κ : Type} (o : Objects) (sep : PStr) : Schema → Elem → EditOp κ → Elem
  | s, e, .fill op => fillStep sep s e op
  | .scalar _ _, .scalar n _, .assign st => .scalar n st
  | .list _ _ _ m, .list n ks, .list op => .list n (members (listStep (memberClass o m) (slotsFrom 0 ks) op))
  | .array _ _ m, .array n ks, .seq op => .array n (seqStep (memberClass o m) ks op)
  | .dict _ mode policy fs, .dict n ks, .map op => .dict n (kidsOfDict fs (mapStep (mapClassOf o mode policy fs) (dictOfKids fs ks) op))
  | _, e, _ => e

/-- a call on the element at a position of the tree, where there is one [no code: `root[…][…].call(…)`] -/
def editAt [Runtime] {κ : Type} (o : Objects) (sep : PStr) : Schema → Elem → List Nat → EditOp κ → Elem
  | s, e, [], op => editHere o sep s e op
  | .dict _ _ _ fs, .dict n ks, i :: p, op => match fs[i]?, ks[i]? with
    | some f, some k => .dict n (ks.set i (if k.present then editAt o sep f k p op else k))
    | _, _ => .dict n ks
  | .list _ _ _ m, .list n ks, i :: p, op => match ks[i]? with
    | some k => .list n (ks.set i (editAt o sep m k p op))
    | .none => .list n ks
  | .array _ _ m, .array n ks, i :: p, op => match ks[i]? with
    | some k => .array n (ks.set i (editAt o sep m k p op))
    | .none => .array n ks
  | _, e, _ :: _, _ => e

/-- calls one after the other, each on some element of the tree, exceptions caught by the caller [no code] -/
def editRun [Runtime] {κ : Type} (o : Objects) (sep : PStr) (s : Schema) : Elem → List (List Nat × EditOp κ) → Elem
  | e, [] => e
  | e, (p, op) :: rest => editRun o sep s (editAt o sep s e p op) rest

end Flatland
