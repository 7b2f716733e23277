import Verif.Spec.Tree
import Verif.Spec.Scalars
/-!
Specifications for `set_flat` on arbitrary submissions (C11, C12, C13, C15).
-/
namespace Flatland.Spec
open Flatland

/-- what a Dict sets at a field: the element that is there, or a new one if there is none -/
def StartsAs (f : Schema) (k start : Elem) : Prop := (k = .absent → start = fresh f) ∧ (k ≠ .absent → start = k)

/-- what a key must start with to concern the children of an element called `name` ('' and None: everything) -/
def childPrefix (sep : PStr) : Option PStr → PStr
  | some (c :: cs) => (c :: cs) ++ sep
  | _ => []

/-- The key is the element's name or extends it through the separator. -/
def Concerns (sep n key : PStr) : Prop := key = n ∨ n ++ sep <+: key

instance (sep n key : PStr) : Decidable (Concerns sep n key) := by unfold Concerns; infer_instance

/-- an Array whose members have a name -/
def NamedMembers : Schema → Prop
  | .array _ _ m => m.name ≠ none
  | _ => False

/-- List or Array -/
def IsSequence : Schema → Prop
  | .list .. | .array .. => True
  | _ => False

/-- what a key must start with to concern the fields of a Dict called `name` (None: everything) -/
def fieldPrefix (sep : PStr) : Option PStr → PStr
  | some n => n ++ sep
  | none => []

section
variable [Runtime]

/-- `key` addresses index `i` of a List called `name`: the prefix, digits denoting `i`, and then nothing, or the separator
and the (non-empty) key `ck` of something inside the member.  (`$` in the regular expression also matches before a final
newline, which is then taken for the inner key.) -/
def Mentions (sep : PStr) (name : Option PStr) (key : PStr) (i : Nat) (ck : Option PStr) : Prop :=
  ∃ ds rest, key = childPrefix sep name ++ ds ++ rest ∧ DigitText ds i ∧
    ((rest = [] ∧ ck = none) ∨ (rest = sep ∧ ck = none) ∨ (∃ r, r ≠ [] ∧ rest = sep ++ r ∧ ck = some r) ∨
     (rest = ['\n'] ∧ ck = some ['\n']))

/-- `l` is what a submission holds for member `i`, in order: inner keys and values. -/
inductive SubmittedFor (sep : PStr) (name : Option PStr) (i : Nat) : List (PStr × PStr) → List FPair → Prop
  | nil : SubmittedFor sep name i [] []
  | take {k v ck ps l} : Mentions sep name k i ck → SubmittedFor sep name i ps l →
      SubmittedFor sep name i ((k, v) :: ps) ((ck, v) :: l)
  | skip {k v ps l} : (∀ ck, ¬ Mentions sep name k i ck) → SubmittedFor sep name i ps l →
      SubmittedFor sep name i ((k, v) :: ps) l

/-- a scalar class that accepts or rejects any text without an exception escaping -/
def TextSafe (t : ScalarType) : Prop := ∀ st x, ∃ ok, (scalarSet t st (.str x)).2 = .ok ok

/-- a scalar class that raises an exception for some text (other than the empty one), whatever it holds -/
def Breaks (t : ScalarType) : Prop := ∃ x, x ≠ [] ∧ ∀ st, ∃ er, (scalarSet t st (.str x)).2 = .error er

mutual
/-- What the library presupposes of schemas: scalars are text safe and every Dict declares a field. -/
def Declared : Schema → Prop
  | .scalar _ t => TextSafe t
  | .dict _ _ _ fs => fs ≠ [] ∧ DeclaredAll fs
  | .list _ _ _ m => Declared m
  | .array _ _ m => Declared m
/-- see `Declared` -/
def DeclaredAll : List Schema → Prop
  | [] => True
  | f :: fs => Declared f ∧ DeclaredAll fs
end
end

mutual
/-- Every Dict declares a field. -/
def FieldsDeclared : Schema → Prop
  | .scalar .. => True
  | .dict _ _ _ fs => fs ≠ [] ∧ FieldsDeclaredAll fs
  | .list _ _ _ m => FieldsDeclared m
  | .array _ _ m => FieldsDeclared m
/-- see `FieldsDeclared` -/
def FieldsDeclaredAll : List Schema → Prop
  | [] => True
  | f :: fs => FieldsDeclared f ∧ FieldsDeclaredAll fs
end

/-- `Reached s t`: the schema has a scalar class `t` where a submission can get at it.  (Not: a scalar without a name that is not in a
List or Array, one called '' that is, and members of a List that takes none.) -/
inductive Reached : Schema → ScalarType → Prop
  | scalar {h t} : h.name ≠ none → Reached (.scalar h t) t
  | field {h mode po fs f t} : f ∈ fs → Reached f t → Reached (.dict h mode po fs) t
  | member {hl prune max h t} : max ≠ 0 → h.name ≠ some [] → Reached (.list hl prune max (.scalar h t)) t
  | inner {hl prune max ha prune' h t} : max ≠ 0 → h.name ≠ some [] → Reached (.list hl prune max (.array ha prune' (.scalar h t))) t
  | item {ha prune h t} : h.name ≠ some [] → Reached (.array ha prune (.scalar h t)) t

/-- members that can be addressed by a bare index: scalars and unnamed Arrays of scalars -/
def BareMember : Schema → Prop
  | .scalar .. => True
  | .array h _ m => (h.name = none ∨ h.name = some []) ∧ isContainer m = false
  | _ => False

mutual
/-- Schemas on which no submission makes `set_flat` raise: Dict fields are named, Arrays hold scalars, and List members are
`BareMember`s (unless the List never takes any member from flat data). -/
def NeverRaises : Schema → Prop
  | .scalar .. => True
  | .dict _ _ _ fs => NeverRaisesAll fs
  | .list _ _ max m => max = 0 ∨ BareMember m
  | .array _ _ m => isContainer m = false
/-- see `NeverRaises` -/
def NeverRaisesAll : List Schema → Prop
  | [] => True
  | f :: fs => f.name ≠ none ∧ NeverRaises f ∧ NeverRaisesAll fs
end

/-- flat pairs as a caller submits them: text keys -/
def texts (ps : List (PStr × PStr)) : List FPair := ps.map fun p => (some p.1, p.2)

end Flatland.Spec
