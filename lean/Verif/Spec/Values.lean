import Verif.Model.Values
import Verif.Spec.Tree
import Verif.Spec.Equality
/-! Specifications: defaults, trees that their value describes, values of trees. -/
namespace Flatland.Spec
open Flatland

mutual
/-- the fields of every Dict have names of their own -/
def NamedFields : Schema → Prop
  | .scalar _ _ => True
  | .dict _ _ _ fs => (∀ f ∈ fs, f.name ≠ .none) ∧ (fs.map Schema.name).Nodup ∧ NamedFieldsAll fs
  | .list _ _ _ m => NamedFields m
  | .array _ _ m => NamedFields m
/-- see `NamedFields` -/
def NamedFieldsAll : List Schema → Prop
  | [] => True
  | f :: fs => NamedFields f ∧ NamedFieldsAll fs
end

mutual
/-- no field of a strict SparseDict is missing -/
def Complete : Schema → Elem → Prop
  | .dict _ _ policy fs, .dict _ ks => (policy = .strict → ∀ k ∈ ks, k.present = true) ∧ CompleteAll fs ks
  | .list _ _ _ m, .list _ ks => ∀ k ∈ ks, Complete m k
  | .array _ _ m, .array _ ks => ∀ k ∈ ks, Complete m k
  | _, _ => True
/-- see `Complete` -/
def CompleteAll : List Schema → List Elem → Prop
  | f :: fs, k :: ks => Complete f k ∧ CompleteAll fs ks
  | _, _ => True
end

/-- setting the scalar's own value on a new scalar succeeds and gives the same value and text -/
def ReAdapts [Runtime] (t : ScalarType) (st : ScalarState) : Prop :=
  ∃ st', scalarSet t .fresh st.value = (st', .ok true) ∧ SameData st st'

mutual
/-- `e'` is what `set_default` makes of `e` -/
def HoldsDefault [Runtime] : Schema → Elem → Elem → Prop
  | .scalar h t, e, e' => match h.dflt with
    | .none => e' = e
    | some d => ∃ st b, scalarSet t .fresh d = (st, .ok b) ∧ e' = .scalar h.name st
  | .dict h mode policy fs, e, e' =>
    if h.dflt = .none ∨ h.dflt = some .none then
      ∃ ks', e' = .dict h.name ks' ∧ match mode with
        | .full => HoldDefaults fs e.kids ks'
        | .sparse => ks' = fs.map fun _ => .absent
        | .sparseRequired => HoldRequired fs ks'
    else ∃ d b, h.dflt = some d ∧ setVal (.dict h mode policy fs) d = .ok (e', b)
  | .list h prune max m, e, e' => match h.dflt with
    | .none => e' = e
    | some .none => e' = e
    | some (.int n) => ∃ ks', e' = .list h.name ks' ∧ ks'.length = n.toNat ∧ ∀ k ∈ ks', HoldsDefault m (fresh m) k
    | some (.bool b) => ∃ ks', e' = .list h.name ks' ∧ ks'.length = b.toNat ∧ ∀ k ∈ ks', HoldsDefault m (fresh m) k
    | some d => ∃ b, setVal (.list h prune max m) d = .ok (e', b)
  | .array h prune m, e, e' =>
    if h.dflt = .none ∨ h.dflt = some .none then e' = e
    else ∃ d b, h.dflt = some d ∧ setVal (.array h prune m) d = .ok (e', b)
/-- the children each hold their default -/
def HoldDefaults [Runtime] : List Schema → List Elem → List Elem → Prop
  | f :: fs, k :: ks, k' :: ks' => HoldsDefault f k k' ∧ HoldDefaults fs ks ks'
  | [], _, ks' => ks' = []
  | _ :: _, [], ks' => ks' = []
  | _ :: _, _ :: _, [] => False
/-- the required fields are there, newly made, with their default; the others are not -/
def HoldRequired [Runtime] : List Schema → List Elem → Prop
  | f :: fs, k' :: ks' => (if f.hdr.optional then k' = .absent else HoldsDefault f (fresh f) k') ∧ HoldRequired fs ks'
  | [], [] => True
  | _, _ => False
end

mutual
/-- everything `set_default` reaches has a default of its own: Scalars any but Unspecified, Lists and Arrays any but None -/
def DefaultsGiven : Schema → Prop
  | .scalar h _ => h.dflt ≠ .none
  | .dict h mode _ fs => (h.dflt = .none ∨ h.dflt = some .none) → mode = .full → DefaultsGivenAll fs
  | .list h _ _ _ => h.dflt ≠ .none ∧ h.dflt ≠ some .none
  | .array h _ _ => h.dflt ≠ .none ∧ h.dflt ≠ some .none
/-- see `DefaultsGiven` -/
def DefaultsGivenAll : List Schema → Prop
  | [] => True
  | f :: fs => DefaultsGiven f ∧ DefaultsGivenAll fs
end

/-- the values of all scalars are well-formed -/
def WfScalars (s : Schema) (e : Elem) : Prop := EachScalar (fun _ _ st => WfVal st.value) false s e

/-- texts with commas between them -/
def commas : List PStr → PStr
  | [] => []
  | [t] => t
  | t :: u :: ts => t ++ ", ".toList ++ commas (u :: ts)

/-- a scalar element: the one whose text is quoted in that of its container -/
def IsScalar : Elem → Prop
  | .scalar .. => True
  | _ => False

mutual
/-- `v` and `t` are what `value` and `u` should be: a scalar has its own; a Dict shows the fields that are there, in order, as `{name: text, ...}`,
and Lists and Arrays show their members as `[text, ...]`.  Names and the texts of scalars are quoted (`repr`), the texts of containers are not. -/
def Shows (repr : PStr → PStr) : Elem → PyVal → PStr → Prop
  | .scalar _ st, v, t => v = st.value ∧ t = st.u
  | .dict _ ks, v, t => ∃ items ts, v = .dict items ∧ t = "{".toList ++ commas ts ++ "}".toList ∧ ShowsItems repr ks items ts
  | .list _ ks, v, t | .array _ ks, v, t => ∃ vs ts, v = .list vs ∧ t = "[".toList ++ commas ts ++ "]".toList ∧ ShowsMembers repr ks vs ts
  | .absent, v, t => v = .none ∧ t = []
/-- the fields, each with its name; those that are not there are left out -/
def ShowsItems (repr : PStr → PStr) : List Elem → List (PStr × PyVal) → List PStr → Prop
  | [], items, ts => items = [] ∧ ts = []
  | k :: ks, items, ts =>
    (k = .absent ∧ ShowsItems repr ks items ts) ∨
    ∃ v t t' items' ts', k ≠ .absent ∧ Shows repr k v t ∧ (IsScalar k → t' = repr t) ∧ (¬ IsScalar k → t' = t) ∧
      items = (k.name.getD [], v) :: items' ∧ ts = (repr (k.name.getD []) ++ ": ".toList ++ t') :: ts' ∧ ShowsItems repr ks items' ts'
/-- the members, in order -/
def ShowsMembers (repr : PStr → PStr) : List Elem → List PyVal → List PStr → Prop
  | [], vs, ts => vs = [] ∧ ts = []
  | k :: ks, vs, ts => ∃ v t t' vs' ts', Shows repr k v t ∧ (IsScalar k → t' = repr t) ∧ (¬ IsScalar k → t' = t) ∧ vs = v :: vs' ∧ ts = t' :: ts' ∧
      ShowsMembers repr ks vs' ts'
end

end Flatland.Spec
