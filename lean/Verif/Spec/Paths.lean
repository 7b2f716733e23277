import Verif.Model.Paths
/-!
Specifications for path expressions: escaping, the branch-by-branch meaning of a path, spellings of integers.
-/
namespace Flatland.Spec
open Flatland

/-! ### escaping -/

/-- a character that has to be escaped inside a name -/
def special (c : Char) : Bool := c == '/' || c == '.' || c == '[' || c == ']'

/-- a name, with a backslash before every special character -/
def escape : PStr → PStr
  | [] => []
  | c :: s => if special c then '\\' :: c :: escape s else c :: escape s

/-- Every name but the last may be followed by a slash, so must not end in a backslash. -/
def Escapable : List PStr → Prop
  | [] => True
  | [n] => n ≠ []
  | n :: ns => n ≠ [] ∧ n.getLast? ≠ some '\\' ∧ Escapable ns

/-- escaped names joined with slashes -/
def slashed : List PStr → PStr
  | [] => []
  | [n] => escape n
  | n :: ns => escape n ++ '/' :: slashed ns

/-! ### what a path means -/

/-- Follow a path from an element, one step after the other.  Each branch ends at an element or in the failure of a
child lookup, in order.  `..` is the parent (the root stays where it is), `/` the root, a name a child lookup, and a
slice continues from every selected child in turn. -/
def branches {N} (g : Graph N) : List Op → N → List (Except PyErr N)
  | [], el => [.ok el]
  | .top :: ops, el => branches g ops (g.root el)
  | .up :: ops, el => branches g ops ((g.parent el).getD el)
  | .here :: ops, el => branches g ops el
  | .name n :: ops, el => match g.index el n with
    | .ok c => branches g ops c
    | .error e => [.error e]
  | .slice a b c :: ops, el => (pySlice (g.children el) a b c).flatMap (branches g ops)

/-- the elements reached, in order -/
def reached {N} (bs : List (Except PyErr N)) : List N :=
  bs.filterMap fun | .ok x => some x | .error _ => none

/-- what the lookup of a child raises if there is none: a LookupError, KeyError, IndexError or TypeError -/
def ChildMissing (e : PyErr) : Prop := e = .lookup ∨ e = .key ∨ e = .index ∨ e = .type

/-- The evaluator stops with this result, however many more steps it is given. -/
def Evaluates {N} (g : Graph N) (strict : Bool) (ops : List Op) (el : N) (r : Except PyErr (List N)) : Prop :=
  ∃ n, ∀ m, n ≤ m → evalLoop g strict m [(ops, el)] [] = some r

/-- No parent of anything is falsy: a container with a child in it is not empty. -/
def ParentsTruthy {N} (g : Graph N) : Prop := ∀ x p, g.parent x = some p → g.truthy p = true

/-! ### simplification -/

/-- Children found by name have the element as their parent. -/
def ParentOfChild {N} (g : Graph N) : Prop := ∀ x n c, g.index x n = .ok c → g.parent c = some x

/-- The root has no parent. -/
def RootTop {N} (g : Graph N) : Prop := ∀ x, g.parent (g.root x) = none

/-- No `..` climbs out of a slice: after a slice, each `..` is preceded by a name of its own.
(`none`: no slice so far; `some k`: `k` names since the last slice are not yet undone.) -/
def upsMatched : Option Nat → List Op → Bool
  | _, [] => true
  | d, .up :: ops => match d with
    | none => upsMatched none ops
    | some 0 => false
    | some (k + 1) => upsMatched (some k) ops
  | d, .name _ :: ops => upsMatched (d.map (· + 1)) ops
  | _, .slice .. :: ops => upsMatched (some 0) ops
  | _, .top :: ops => upsMatched none ops
  | d, .here :: ops => upsMatched d ops

/-! ### slices -/

/-- a digit string denoting `n` -/
def Digits [Runtime] (s : PStr) (n : Nat) : Prop := s ≠ [] ∧ digitsAcc 0 s = some n

/-- a way of writing the integer `i`: digits, or a minus sign and digits -/
def Spells [Runtime] (s : PStr) (i : Int) : Prop :=
  (∃ n, Digits s n ∧ i = n) ∨ (∃ ds n, s = '-' :: ds ∧ Digits ds n ∧ i = -n)

/-- a slice bound: left out, or an integer -/
def SpellsOpt [Runtime] (s : PStr) : Option Int → Prop
  | none => s = []
  | some i => Spells s i

/-- a bound, zero counting as left out -/
def nonzero : Option Int → Option Int
  | none => none
  | some i => if i = 0 then none else some i

/-! ### the cache -/

/-- the cache after a history of lookups, and what each lookup returned -/
def lookups [Runtime] : List (PStr × Compiled) → List PStr → List (PStr × Compiled) × List (Except PyErr Compiled)
  | cache, [] => (cache, [])
  | cache, t :: ts =>
    let r := pathexpr cache t
    let rest := lookups r.1 ts
    (rest.1, r.2 :: rest.2)

/-- what compiling a path anew gives -/
def compiledAnew [Runtime] (t : PStr) : Except PyErr Compiled :=
  match tokenize t with
  | .ok ops => .ok (.expr t ops)
  | .error e => .error e

end Flatland.Spec
