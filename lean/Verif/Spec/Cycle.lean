import Verif.Spec.Tree
import Verif.Spec.ScalarTypes
/-
Specification for C83: what is left of a form after its page has been sent back, whatever the form holds, and that sending
it back again and again changes nothing more.
-/
namespace Flatland.Spec

variable [Runtime]

/-- some scalar of the element is among the pairs that get through (`p`: some enclosing List drops blank pairs) -/
def survives (p : Bool) (e : Elem) : Bool := (leaves e).any fun l => !dropped p l

/-- the list up to and including the last entry for which `q` holds -/
def upToLast {α : Type} (q : α → Bool) (l : List α) : List α := (l.reverse.dropWhile fun x => !q x).reverse

/-- Are blank members of the Array dropped?  Yes inside a pruning List, and if the Array prunes, unless neither it nor its
members have a name (then it sits in a List, and looks for an empty key where it gets no key). -/
def arrayDrops (p prune : Bool) (name memberName : Option PStr) : Bool := p || (prune && (name.isSome || memberName.isSome))

mutual
/-- What comes back of an element.
Scalars are set from their own text, except that blanks inside a pruning List stay unset.
An optional field of a SparseDict none of whose scalars gets through is missing, another field is new.
A pruning List has the members of which some scalar gets through, another List everything up to the last such member,
both no more than the allowed number.
An Array has all its members, or those that are not blank (`arrayDrops`). -/
def broughtBack (p : Bool) : Schema → Elem → Elem
  | .scalar _ t, .scalar n st => .scalar n (if p && st.u == [] then .fresh else (scalarSet t .fresh (.str st.u)).1)
  | .dict _ mode _ fs, .dict n ks => .dict n (broughtBackAll p mode fs ks)
  | .list _ true max m, .list n ks => .list n (((ks.filter (survives true)).take max).map (broughtBack true m))
  | .list _ false max m, .list n ks => .list n (((upToLast (survives p) ks).take max).map (broughtBack p m))
  | .array h prune m, .array n ks =>
    .array n ((ks.filter fun k => !(arrayDrops p prune h.name m.name && k.state.u == [])).map (broughtBack false m))
  | _, e => e
/-- see `broughtBack` -/
def broughtBackAll (p : Bool) (mode : DictMode) : List Schema → List Elem → List Elem
  | f :: fs, k :: ks => (if survives p k then broughtBack p f k else if autoField mode f then fresh f else .absent) ::
      broughtBackAll p mode fs ks
  | _, ks => ks
end

/-- the scalar accepts its own text without an exception escaping (or its text is not sent) -/
def TakesItsText (p : Bool) (t : ScalarType) (st : ScalarState) : Prop :=
  (p && st.u == []) = true ∨ ∃ b, (scalarSet t .fresh (.str st.u)).2 = .ok b

mutual
/-- no List has more members than `maximum_set_flat_members` -/
def WithinMax : Schema → Elem → Prop
  | .dict _ _ _ fs, .dict _ ks => WithinMaxAll fs ks
  | .list _ _ max m, .list _ ks => ks.length ≤ max ∧ ∀ k ∈ ks, WithinMax m k
  | _, _ => True
/-- see `WithinMax` -/
def WithinMaxAll : List Schema → List Elem → Prop
  | f :: fs, k :: ks => WithinMax f k ∧ WithinMaxAll fs ks
  | _, _ => True
end

/-- The scalar takes its own text, and has the same text afterwards. -/
def Steady (p : Bool) (t : ScalarType) (st : ScalarState) : Prop := TakesItsText p t st ∧ ReadsBack SameText p t st

mutual
/-- Pruning Lists have no member, and pruning Arrays have no member, that would not get through. -/
def NoBlanks (p : Bool) : Schema → Elem → Prop
  | .dict _ _ _ fs, .dict _ ks => NoBlanksAll p fs ks
  | .list _ prune _ m, .list _ ks => ∀ k ∈ ks, NoBlanks (p || prune) m k ∧ (prune = true → survives true k = true)
  | .array h prune m, .array _ ks => arrayDrops p prune h.name m.name = true → ∀ k ∈ ks, k.state.u ≠ []
  | _, _ => True
/-- see `NoBlanks` -/
def NoBlanksAll (p : Bool) : List Schema → List Elem → Prop
  | f :: fs, k :: ks => NoBlanks p f k ∧ NoBlanksAll p fs ks
  | _, _ => True
end

mutual
/-- all scalar classes of the schema satisfy `P` -/
def AllTypes (P : ScalarType → Prop) : Schema → Prop
  | .scalar _ t => P t
  | .dict _ _ _ fs => AllTypesIn P fs
  | .list _ _ _ m => AllTypes P m
  | .array _ _ m => AllTypes P m
/-- see `AllTypes` -/
def AllTypesIn (P : ScalarType → Prop) : List Schema → Prop
  | [] => True
  | f :: fs => AllTypes P f ∧ AllTypesIn P fs
end

/-- one of the scalar classes that come with the library, with constants that read back as they are written -/
def IsBuiltin (t : ScalarType) : Prop := ∃ b : Builtin, b.Consistent ∧ t = b.type

/-- the form after its page has been sent back, unchanged, `n` times -/
def sentBack (sep : PStr) (s : Schema) : Nat → Elem → Except PyErr Elem
  | 0, e => .ok e
  | n + 1, e => match fromFlat sep s (flatten sep e) with
    | .ok e' => sentBack sep s n e'
    | .error x => .error x

end Flatland.Spec
