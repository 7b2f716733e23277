import Verif.Model.CreditCard
/-! Numeric specifications of card classes and of the Luhn checksum. -/
namespace Flatland.Spec
open Flatland

/-- the digits -/
def digitSigns : PStr := ['0', '1', '2', '3', '4', '5', '6', '7', '8', '9']

/-- a number with exactly `len` decimal digits whose leading digits are the number `pre` (of `k` digits) -/
def HasPrefix (pre k len : Nat) (n : Int) : Prop :=
  (pre * 10 ^ (len - k) : Int) ≤ n ∧ n < ((pre + 1) * 10 ^ (len - k) : Int)

/-- number of decimal digits -/
def HasDigits (len : Nat) (n : Int) : Prop := (10 ^ (len - 1) : Int) ≤ n ∧ n < (10 ^ len : Int)

/-- decimal digits, least significant first -/
def digitsLSB (n : Nat) : List Nat :=
  if h : n = 0 then [] else n % 10 :: digitsLSB (n / 10)
termination_by n

/-- weight of digit `d` at position `i` (0 = rightmost): every second digit from the right is doubled, and nine is
subtracted when the double exceeds nine -/
def luhnWeight (i d : Nat) : Nat := if i % 2 = 0 then d else if 2 * d > 9 then 2 * d - 9 else 2 * d

/-- Luhn sum of a digit list (least significant first) -/
def luhnSum (ds : List Nat) : Nat := (ds.mapIdx luhnWeight).sum

/-- the Luhn criterion -/
def LuhnOK (n : Nat) : Prop := luhnSum (digitsLSB n) % 10 = 0

/-- value of a digit list, least significant first -/
def valueLSB : List Nat → Nat
  | [] => 0
  | d :: ds => d + 10 * valueLSB ds

/-- documented card classes: Visa starts with 4 and has 13 or 16 digits, MasterCard 51–55 with 16, Amex 34/37 with 15,
Discover 6011 with 16. -/
def IsCard : CardType → Int → Prop
  | .visa, n => HasPrefix 4 1 16 n ∨ HasPrefix 4 1 13 n
  | .masterCard, n => ∃ p, 51 ≤ p ∧ p ≤ 55 ∧ HasPrefix p 2 16 n
  | .amex, n => HasPrefix 34 2 15 n ∨ HasPrefix 37 2 15 n
  | .discover, n => HasPrefix 6011 4 16 n

end Flatland.Spec
