import Verif.Spec.SetFlat
/-!
What C10 needs to know about arbitrary submissions: which keys are written one way only, and which schemas keep no record of the order in which
different keys arrive.
-/
namespace Flatland.Spec
open Flatland

section
variable [Runtime]

/-- A key with nothing written in an unusual way: digits are 0-9, no number in it starts with a superfluous zero, and it ends neither in the
separator nor in a newline. (`l_00`, `l_0_` and `l_0` all address the first member of `l`; only the last is tidy.) -/
structure TidyKey (sep key : PStr) : Prop where
  ascii : ∀ c ∈ key, ∀ d, digit c = some d → c = digitChar d
  noZeros : ∀ a b c, key = a ++ '0' :: c :: b → (∀ x, a.getLast? = some x → digit x = none) → digit c = none
  noSep : ¬ sep <:+ key
  noNewline : key.getLast? ≠ some '\n'

/-- a name that is missing or empty -/
def Nameless (name : Option PStr) : Prop := name = none ∨ name = some []

mutual
/-- Dict fields are named, scalars take any text without raising, and of each Array and its members exactly one has a name, so that a single
key addresses the members. -/
def OneKey : Schema → Prop
  | .scalar _ t => TextSafe t
  | .dict _ _ _ fs => OneKeyAll fs
  | .list _ _ _ m => OneKey m
  | .array h _ m => (Nameless h.name ↔ ¬ Nameless m.name) ∧ OneKey m
/-- see `OneKey` -/
def OneKeyAll : List Schema → Prop
  | [] => True
  | f :: fs => f.name ≠ none ∧ OneKey f ∧ OneKeyAll fs
end
end

end Flatland.Spec
