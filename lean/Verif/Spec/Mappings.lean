import Verif.Model.Mappings
/-! Specifications for Dict, SparseDict and key selection. -/
namespace Flatland.Spec
open Flatland

variable {K V E A : Type} [DecidableEq K]

/-- the schema's field names -/
def names (c : MapClass K V E) : List K := c.fields.map Field.name

/-- a history of operations on a new mapping, each successful or not -/
def mapHistory (c : MapClass K V E) (ops : List (MapOp K V E)) : PyDict K E := ops.foldl (mapStep c) (mapNew c)

/-- instances made by the field's class carry the class's `optional`, and no operation on an instance changes it -/
structure OptionalFixed (f : Field K V E) : Prop where
  blank : f.optionalOf f.cls.blank = f.optional
  make : ∀ v e, f.cls.make v = .ok e → f.optionalOf e = f.optional
  set : ∀ e a, f.optionalOf (f.cls.set e a).1 = f.optionalOf e
  setDefault : ∀ e, f.optionalOf (f.setDefault e).1 = f.optionalOf e
  fromDefaults : ∀ e, f.fromDefaults = .ok e → f.optionalOf e = f.optional

/-- an element handed in for a key has the `optional` of the field it replaces -/
def SameOptional (c : MapClass K V E) (k : K) : Arg V E → Prop
  | .el x => ∀ f ∈ c.fields, f.name = k → f.isInstance x = true → f.optionalOf x = f.optional
  | .val _ => True

/-- elements handed in by an operation keep the schema's `optional` (see `SameOptional`) -/
def KeepsOptional (c : MapClass K V E) : MapOp K V E → Prop
  | .setItem k a => SameOptional c k a
  | .update (.seq items _) kw => (∀ p ∈ items, SameOptional c p.1 p.2) ∧ ∀ p ∈ kw, SameOptional c p.1 p.2
  | .setFlat eff => ∀ f ∈ c.fields, ∀ g, eff f.name = .apply g → ∀ e, f.optionalOf (g e).1 = f.optionalOf e
  | _ => True

/-- the values supplied for a key, in order -/
def valuesOf (items : List (K × Arg V E)) (k : K) : List (Arg V E) :=
  items.filterMap fun p => if p.1 = k then some p.2 else none

/-- an element `set` with each of the values in turn; True iff all succeed -/
def setAll (c : MemberClass V E) : E → List (Arg V E) → E × Except PyErr Bool
  | e, [] => (e, .ok true)
  | e, a :: as => match c.set e a with
    | (e', .error er) => (e', .error er)
    | (e', .ok b) => match setAll c e' as with
      | (e'', .error er) => (e'', .error er)
      | (e'', .ok b') => (e'', .ok (b && b'))

/-- setting a child never raises -/
def ChildrenNeverRaise (c : MapClass K V E) : Prop := ∀ f ∈ c.fields, ∀ e a, ∃ b, (f.cls.set e a).2 = .ok b

/-- the key under which a pair is compared -/
def cmpKey (s : Selection K) (k : K) : K := match s.key with | some f => f k | none => k

/-- what `include` and `omit` say about a key that is not renamed -/
def selected (s : Selection K) (k : K) : Prop := if s.included = [] then k ∉ s.omitted else k ∈ s.included

instance (s : Selection K) (k : K) : Decidable (selected s k) := by unfold selected; infer_instance

/-- what a pair is emitted as: under its new name if it is renamed; unchanged (but for the key function) if it is included or,
nothing being included explicitly, not omitted; otherwise not at all -/
def emitted (s : Selection K) (p : K × A) : Option (K × A) :=
  match dictGet s.rename (cmpKey s p.1) with
  | some n => some (n, p.2)
  | none => if selected s (cmpKey s p.1) then some (cmpKey s p.1, p.2) else none

end Flatland.Spec
