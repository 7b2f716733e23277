import Verif.Spec.CreditCard
import Verif.Spec.Scalars
/-! What a card number field should say about what is in it. -/
namespace Flatland.Spec

/-- the number is of one of the accepted classes (a 13 digit Visa number is of none: see C08) -/
def OfClass (accepted : List CardType) (n : Int) : Prop := ∃ t ∈ accepted, IsCard t n ∧ ¬ HasPrefix 4 1 13 n

/-- what a class of cards is called -/
def cardName : CardType → PStr
  | .visa => ['V', 'i', 's', 'a']
  | .masterCard => ['M', 'a', 's', 't', 'e', 'r', 'C', 'a', 'r', 'd']
  | .amex => ['A', 'm', 'e', 'r', 'i', 'c', 'a', 'n', ' ', 'E', 'x', 'p', 'r', 'e', 's', 's']
  | .discover => ['D', 'i', 's', 'c', 'o', 'v', 'e', 'r']

/-- what can be wrong with a card number field -/
inductive CardFault
  | blank
  | unread
  | checkDigit
  | refused
  deriving DecidableEq

/-- what is wrong, if anything, with a field that shows the text `u` and holds `value`: the first of the four that applies -/
inductive Judged (accepted : List CardType) : PStr → PyVal → Option CardFault → Prop
  | blank {v} : Judged accepted [] v (some .blank)
  | unread {u} : u ≠ [] → Judged accepted u .none (some .unread)
  | checkDigit {u} {n : Nat} : u ≠ [] → ¬ LuhnOK n → Judged accepted u (.int n) (some .checkDigit)
  | refused {u} {n : Nat} : u ≠ [] → LuhnOK n → ¬ OfClass accepted n → Judged accepted u (.int n) (some .refused)
  | good {u} {n : Nat} : u ≠ [] → LuhnOK n → OfClass accepted n → Judged accepted u (.int n) .none

/-- what the user is told, for the faults that have a text with the label in it -/
def faultText (label : PStr) : CardFault → PStr
  | .blank => label ++ " may not be blank.".toList
  | .unread => label ++ " is not correct.".toList
  | .checkDigit => "The ".toList ++ label ++ " was not entered correctly.".toList
  | .refused => []

/-- a message is added once -/
def withMessage (errors : List PStr) (m : PStr) : List PStr := if m ∈ errors then errors else errors ++ [m]

/-- what `validate` should leave in the errors and return: the refusal has a text of its own, see `C71_refused_raises` -/
def cardReport (label : PStr) (errors : List PStr) : Option CardFault → List PStr × Except PyErr Bool
  | some f => (withMessage errors (faultText label f), .ok false)
  | .none => (errors, .ok true)

/-- a text a user may type: fifteen or more digits, spaces and dashes, whose digits read `n` -/
def TypedNumber [Runtime] (s : PStr) (n : Nat) : Prop :=
  15 ≤ s.length ∧ (∀ c ∈ s, c ∈ digitSigns ∨ space c = true ∨ c = '-') ∧ DigitText (s.filter (· ∈ digitSigns)) n

end Flatland.Spec
