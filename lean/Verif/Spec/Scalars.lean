import Verif.Model.Py
/-!
Specifications for scalar elements, written without the model's parsing helpers.
-/
namespace Flatland.Spec
open Flatland

/-- Place-value reading of a list of decimal digits, most significant first. -/
def placeValue : List Nat → Nat
  | [] => 0
  | d :: ds => d * 10 ^ ds.length + placeValue ds

/-- `DigitText s n`: `s` is a non-empty run of digit characters denoting `n`. -/
def DigitText [Runtime] (s : PStr) (n : Nat) : Prop :=
  s ≠ [] ∧ ∃ ds : List Nat, s.map digit = ds.map some ∧ placeValue ds = n

/-- all white space -/
def Blank [Runtime] (s : PStr) : Prop := ∀ c ∈ s, space c = true

/-- `IntText s i`: an optionally signed decimal numeral (surrounded by white space) denoting `i`. -/
inductive IntText [Runtime] : PStr → Int → Prop
  | plain {l s r n} : Blank l → Blank r → DigitText s n → IntText (l ++ s ++ r) n
  | plus {l s r n} : Blank l → Blank r → DigitText s n → IntText (l ++ '+' :: s ++ r) n
  | minus {l s r n} : Blank l → Blank r → DigitText s n → IntText (l ++ '-' :: s ++ r) (-(n : Int))

/-- days in each month, by the Gregorian leap rule -/
def monthLength (y : Nat) (m : Nat) : Option Nat :=
  let feb := if (4 ∣ y ∧ ¬ 100 ∣ y) ∨ 400 ∣ y then 29 else 28
  [31, feb, 31, 30, 31, 30, 31, 31, 30, 31, 30, 31][m - 1]?

/-- a real date of the years 1-9999 -/
def RealDate (y m d : Nat) : Prop :=
  1 ≤ y ∧ y ≤ 9999 ∧ 1 ≤ m ∧ 1 ≤ d ∧ ∃ len, monthLength y m = some len ∧ d ≤ len

/-- a real clock time -/
def RealTime (h mi s : Nat) : Prop := h ≤ 23 ∧ mi ≤ 59 ∧ s ≤ 59

/-- digit text of an exact width -/
def Field [Runtime] (w : Nat) (s : PStr) (n : Nat) : Prop := DigitText s n ∧ s.length = w

/-- `YYYY-MM-DD` -/
def DateText [Runtime] (s : PStr) (y m d : Nat) : Prop :=
  ∃ Y M D, Field 4 Y y ∧ Field 2 M m ∧ Field 2 D d ∧ s = Y ++ ['-'] ++ M ++ ['-'] ++ D

/-- `HH:MM:SS` -/
def TimeText [Runtime] (s : PStr) (h mi sec : Nat) : Prop :=
  ∃ H M S, Field 2 H h ∧ Field 2 M mi ∧ Field 2 S sec ∧ s = H ++ [':'] ++ M ++ [':'] ++ S

/-- what a text field may carry around its payload: white space when stripping, and
otherwise at most one final newline (regular expression `$`). -/
def Around [Runtime] (doStrip : Bool) (s core : PStr) : Prop :=
  if doStrip then ∃ l r, Blank l ∧ Blank r ∧ s = l ++ core ++ r
  else s = core ∨ s = core ++ ['\n']

/-- native values that exist in Python (dates and times are real ones) -/
def Native : PyVal → Prop
  | .date y m d => RealDate y m d
  | .time h mi s us => RealTime h mi s ∧ us < 1000000
  | .datetime y m d h mi s us => RealDate y m d ∧ RealTime h mi s ∧ us < 1000000
  | _ => True

/-- values that are false -/
def FalseValue [Runtime] (v : PyVal) : Prop :=
  v = .none ∨ v = .bool false ∨ v = .int 0 ∨ v = .str [] ∨ v = .list [] ∨ v = .dict [] ∨ v = .time 0 0 0 0 ∨ ∃ n, v = .obj n ∧ Runtime.truthObj n = false

end Flatland.Spec
