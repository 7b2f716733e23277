import Verif.Model.Scalars
/-
Model of flatland/ext/creditcard.py and flatland/util/base.py:luhn10.
-/
namespace Flatland

/-- One iteration of the loop of `luhn10` (flatland/util/base.py:225-230): (number, sum).  `%` and `//`
by a positive constant are Euclidean, which agrees with Python's floor semantics. -/
def luhnStep (st : Int × Int) : Int × Int :=
  let r := st.1 % 100
  let z := r % 10
  let r2 := r / 10 * 2
  (st.1 / 100, st.2 + (r2 / 10 + r2 % 10 + z))

/-- The `while number:` loop of `luhn10` (util/base.py:221-232) run for at most `fuel` tests of the loop condition;
`none` means the loop is still running. -/
def luhnLoop : Nat → Int × Int → Option Bool
  | 0, _ => .none
  | fuel + 1, st => if st.1 = 0 then some (st.2 % 10 == 0) else luhnLoop fuel (luhnStep st)

/-- `luhn10(number)` with bounded patience. [util/base.py:221-232] -/
def luhn10 (fuel : Nat) (number : Int) : Option Bool := luhnLoop fuel (number, 0)

/-- ASCII `[0-9]`. [ext/creditcard.py:100-101] -/
def isAsciiDigit (c : Char) : Bool := 48 ≤ c.toNat && c.toNat ≤ 57

/-- `_re_filler.match(number)`, creditcard.py:101,111: `^[0-9\s-]{15,}$`.  (A final newline is white space, so the
`$` subtlety changes nothing.) -/
def reFiller [Runtime] (s : PStr) : Bool :=
  15 ≤ s.length && s.all fun c => isAsciiDigit c || space c || c == '-'

/-- `_re_strip.sub(u'', number)`, creditcard.py:100,114. -/
def reStrip (s : PStr) : PStr := s.filter isAsciiDigit

/-- `_from_string`, creditcard.py:103-114, for text: `ok none` = returns None. `int('')` raises ValueError. -/
def ccFromString [Runtime] (s : PStr) : Except PyErr (Option Int) :=
  if !reFiller s then .ok .none
  else match pyInt (reStrip s) with
    | some i => .ok (some i)
    | .none => .error .value

/-- `_pretty_print`, creditcard.py:116-129. -/
def ccPretty (i : Int) : PStr :=
  let s := decimalInt i
  if s.length = 16 then
    s.take 4 ++ '-' :: (s.drop 4).take 4 ++ '-' :: (s.drop 8).take 4 ++ '-' :: (s.drop 12).take 4
  else if s.length = 15 then
    s.take 4 ++ '-' :: (s.drop 4).take 6 ++ '-' :: (s.drop 10).take 5
  else if s.length = 13 then
    s.take 4 ++ '-' :: (s.drop 4).take 3 ++ '-' :: (s.drop 7).take 3 ++ '-' :: (s.drop 10).take 3
  else s

/-- `CreditCardNumber.adapt` / `.serialize`, creditcard.py:32-49.  `bool` is an int in Python. -/
def creditCardType [Runtime] : ScalarType where
  adapt
    | .none => .ok .none
    | .int i => .ok (.int i)
    | .bool b => .ok (.bool b)
    | .str s => match ccFromString s with
      | .error e => .error e
      | .ok .none => .error .adaptation
      | .ok (some i) => .ok (.int i)
    | _ => .error .adaptation
  serialize
    | .int i => .ok (ccPretty i)
    | .bool b => .ok (pyText (.bool b))
    | _ => .ok []

/-- Match of a sequence of character classes anchored by `^` and `$` (`$` also before a final newline). [Python regular expressions; used at ext/creditcard.py:79-82, 101] -/
def rxChars : List (Char → Bool) → PStr → Bool
  | [], s => s == [] || s == ['\n']
  | p :: ps, c :: cs => p c && rxChars ps cs
  | _ :: _, [] => false

/-- `\d` [ext/creditcard.py:79-82] -/
def isDigit [Runtime] (c : Char) : Bool := (digit c).isSome

/-- `_re_visa` = `^4\d{12}\d{3}?$`, creditcard.py:79.  `{3}?` is a *lazy* quantifier, i.e. exactly three. -/
def rxVisa [Runtime] : List (Char → Bool) := (· == '4') :: List.replicate 12 isDigit ++ List.replicate 3 isDigit
/-- `_re_mc` = `^5[1-5]\d{14}$`, creditcard.py:80. -/
def rxMC [Runtime] : List (Char → Bool) :=
  (· == '5') :: (fun c => '1'.toNat ≤ c.toNat && c.toNat ≤ '5'.toNat) :: List.replicate 14 isDigit
/-- `_re_amex` = `^3[47]\d{13}$`, creditcard.py:81. -/
def rxAmex [Runtime] : List (Char → Bool) :=
  (· == '3') :: (fun c => c == '4' || c == '7') :: List.replicate 13 isDigit
/-- `_re_disc` = `^6011\d{12}$`, creditcard.py:82. -/
def rxDisc [Runtime] : List (Char → Bool) :=
  (· == '6') :: (· == '0') :: (· == '1') :: (· == '1') :: List.replicate 12 isDigit

/-- card types, creditcard.py:13-16 -/
inductive CardType | visa | masterCard | amex | discover
  deriving DecidableEq, Repr

/-- `_card_type`, creditcard.py:84-98. -/
def cardType [Runtime] (n : Int) : Option CardType :=
  let s := decimalInt n
  if rxChars rxVisa s then some .visa
  else if rxChars rxMC s then some .masterCard
  else if rxChars rxAmex s then some .amex
  else if rxChars rxDisc s then some .discover
  else .none

/-- `AcceptedType.validate`, creditcard.py:72-77 (value must be an int: `assert` at line 85). -/
def acceptedType [Runtime] (accepted : List CardType) (n : Int) : Bool :=
  match cardType n with
  | some t => accepted.contains t
  | .none => false

end Flatland
