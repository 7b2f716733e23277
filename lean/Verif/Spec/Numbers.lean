import Verif.Model.Numbers
/-
Vocabulary for C66.
-/
namespace Flatland.Spec
open Flatland

/-- the values of the digits in a text, in order; everything else is ignored -/
def digitsOf [Runtime] (s : PStr) : List Nat := s.filterMap digit

/-- all digits of the text are the digits 0-9 of ASCII -/
def PlainDigits [Runtime] (s : PStr) : Prop := ∀ c ∈ s, digit c ≠ .none → c ∈ "0123456789".toList

/-- digits as ASCII text -/
def spell (ds : List Nat) : PStr := ds.map digitChar

/-- ten digits as a phone number: `(ddd) ddd-dddd` -/
def phoneText (ds : List Nat) : PStr := '(' :: spell (ds.take 3) ++ ") ".toList ++ spell ((ds.drop 3).take 3) ++ '-' :: spell ((ds.drop 6).take 4)

/-- what a phone number with these digits is: too short; complete; or with an extension -/
def PhoneOutcome (ext : PhoneExt) (ds : List Nat) (r : Except PyErr PhoneResult) : Prop :=
  (ds.length < 10 → r = .ok (.note "invalid".toList)) ∧
  (ds.length = 10 → r = .ok (.setTo (phoneText ds))) ∧
  (10 < ds.length → ext = .refuse → r = .ok (.note "noext".toList)) ∧
  (10 < ds.length → ext = .strip → r = .ok (.setTo (phoneText ds))) ∧
  (10 < ds.length → ext = .keep → r = .error .type)

/-- An exchange code: from 200 up, and none of the reserved codes (the n11 codes, and some special ones). -/
def ExchangeCode (n : Int) : Prop := 200 ≤ n ∧ (∀ k : Int, 3 ≤ k → k ≤ 9 → n ≠ 100 * k + 11) ∧ n ∉ [555, 700, 950, 958, 959, 976, 990]

end Flatland.Spec
