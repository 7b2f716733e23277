import Verif.Model.Scalars
/-
Model of the Float and Decimal element classes (flatland/schema/scalars.py:218-310), with what Python's `float` and `decimal.Decimal` make of text and of
numbers, and with `u'%f' % value`.  Numbers are exact rationals; a float is one that fits 53 binary digits.

Simplifications: the limits of the decimal module (exponents beyond 10^18) are not modelled; a NaN has no sign and no payload; `format` is `u'%f'` or
`u'%.<places>f'`; OverflowError and decimal.InvalidOperation are ArithmeticErrors, `PyErr.zeroDivision` stands for any of these.
-/
namespace Flatland

/-- any ArithmeticError [schema/scalars.py:249] -/
abbrev PyErr.arithmetic : PyErr := .zeroDivision

/-- two to the power of an integer [Python float] -/
def pow2 (e : Int) : Rat := if 0 ≤ e then ((2 ^ e.toNat : Nat) : Rat) else 1 / ((2 ^ (-e).toNat : Nat) : Rat)

/-- ten to the power of an integer [Python float(), decimal.Decimal()] -/
def pow10 (e : Int) : Rat := if 0 ≤ e then ((10 ^ e.toNat : Nat) : Rat) else 1 / ((10 ^ (-e).toNat : Nat) : Rat)

/-- the whole number nearest to a number that is not negative, the even one if two are equally near [Python float(), '%f'] -/
def roundEven (q : Rat) : Nat :=
  let f := q.floor.toNat
  if q - f < 1 / 2 then f else if 1 / 2 < q - f then f + 1 else if f % 2 = 0 then f else f + 1

/-- the exponent `k` with 2^k ≤ q < 2^(k+1) [Python float()] -/
def binade (q : Rat) : Int :=
  let k : Int := (q.num.natAbs.log2 : Int) - (q.den.log2 : Int)
  if pow2 k ≤ q then k else k - 1

/-- the 64 bit float for a number that is not negative; `none`: too large [Python float(), Decimal.__float__, int.__float__] -/
def toDouble (q : Rat) : Option Rat :=
  if q = 0 then some 0 else
  let e := max (binade q - 52) (-1074)
  let d := roundEven (q / pow2 e) * pow2 e
  if pow2 1024 ≤ d then none else some d

/-- a Python float: the sign also of zero [Python float] -/
inductive FloatVal
  | nan
  | inf (neg : Bool)
  | fin (neg : Bool) (mag : Rat)
  deriving DecidableEq

/-- a `decimal.Decimal`: `coeff` times ten to the power of `exp` [Python decimal] -/
inductive DecVal
  | nan (signaling : Bool)
  | inf (neg : Bool)
  | fin (neg : Bool) (coeff : Nat) (exp : Int)
  deriving DecidableEq

/-- What the objects are and what the runtime knows about further characters and objects, added to `Runtime` (never axioms).
* `floatId`, `decId` – the objects that are floats and Decimals (`PyVal.obj`), `floatAt`, `decAt` – the other way round;
* `floatOther`, `decOther` – `float(v)`, `Decimal(v)` for all objects that are not None, text, int, bool, float or Decimal. [no code] -/
class NumberRuntime [Runtime] where
  floatId : FloatVal → Nat
  floatAt : Nat → Option FloatVal
  decId : DecVal → Nat
  decAt : Nat → Option DecVal
  floatOther : PyVal → Except PyErr FloatVal
  decOther : PyVal → Except PyErr DecVal
  floatAt_id : ∀ x, floatAt (floatId x) = some x
  decAt_id : ∀ x, decAt (decId x) = some x
  floatAt_dec : ∀ x, floatAt (decId x) = none
  decAt_float : ∀ x, decAt (floatId x) = none
  dot_not_digit : digit '.' = none
  letter_not_digit : ∀ c, ('a' ≤ c ∧ c ≤ 'z') ∨ ('A' ≤ c ∧ c ≤ 'Z') → digit c = none
  letter_not_space : ∀ c, ('a' ≤ c ∧ c ≤ 'z') ∨ ('A' ≤ c ∧ c ≤ 'Z') → space c = false

export NumberRuntime (floatId floatAt decId decAt)

/-- a float as a Python value [Python float] -/
def floatVal [Runtime] [NumberRuntime] (x : FloatVal) : PyVal := .obj (floatId x)

/-- a Decimal as a Python value [Python decimal] -/
def decVal [Runtime] [NumberRuntime] (x : DecVal) : PyVal := .obj (decId x)

/-! ### text -/

/-- what the text of a number can be: `num neg coeff exp` is `coeff` times ten to the power of `exp` [Python float(), decimal.Decimal()] -/
inductive NumText
  | nan (signaling : Bool)
  | inf (neg : Bool)
  | num (neg : Bool) (coeff : Nat) (exp : Int)
  deriving DecidableEq

/-- is the character a decimal digit? [Python float(), decimal.Decimal()] -/
def isDigitChar [Runtime] (c : Char) : Bool := (digit c).isSome

/-- an optional sign: is it a minus, and the rest [Python float(), decimal.Decimal()] -/
def signOf : PStr → Bool × PStr
  | '-' :: s => (true, s)
  | '+' :: s => (false, s)
  | s => (false, s)

/-- the exponent at the end: nothing, or `e`, an optional sign and digits [Python float(), decimal.Decimal()] -/
def exponentOf [Runtime] : PStr → Option Int
  | [] => some 0
  | c :: s =>
    if c = 'e' ∨ c = 'E' then
      (parseDigits (signOf s).2).map fun (n : Nat) => if (signOf s).1 then -(n : Int) else (n : Int)
    else .none

/-- the digits after a decimal point, if there is one, and the rest [Python float(), decimal.Decimal()] -/
def fractionOf [Runtime] : PStr → PStr × PStr
  | '.' :: s => (s.takeWhile isDigitChar, s.dropWhile isDigitChar)
  | s => ([], s)

/-- digits, with at most one decimal point, and an exponent [Python float(), decimal.Decimal()] -/
def finiteOf [Runtime] (neg : Bool) (s : PStr) : Option NumText :=
  let whole := s.takeWhile isDigitChar
  let frac := fractionOf (s.dropWhile isDigitChar)
  match parseDigits (whole ++ frac.1), exponentOf frac.2 with
  | some n, some x => some (.num neg n (x - frac.1.length))
  | _, _ => .none

/-- `infinity` and `nan` in any case; a NaN of a Decimal (`dec`) may be signaling and may have digits [Python float(), decimal.Decimal()] -/
def wordOf [Runtime] (dec neg : Bool) (s : PStr) : Option NumText :=
  let w := s.map Char.toLower
  if w = "inf".toList ∨ w = "infinity".toList then some (.inf neg)
  else if w = "nan".toList ∨ (dec ∧ "nan".toList.isPrefixOf w ∧ (s.drop 3).all isDigitChar) then some (.nan false)
  else if dec ∧ "snan".toList.isPrefixOf w ∧ (s.drop 4).all isDigitChar then some (.nan true)
  else .none

/-- the text of a number, white space already removed [Python float(), decimal.Decimal()] -/
def numText [Runtime] (dec : Bool) (s : PStr) : Option NumText :=
  let r := signOf s
  match wordOf dec r.1 r.2 with
  | some x => some x
  | .none => finiteOf r.1 r.2

/-- '%.<places>f' of a number that is not negative [Python '%f'] -/
def fixedText (places : Nat) (q : Rat) : PStr :=
  let n := roundEven (q * pow10 places)
  if places = 0 then decimal n else decimal (n / 10 ^ places) ++ '.' :: padNat places (n % 10 ^ places)

/-- the sign that is shown [Python '%f'] -/
def signText (neg : Bool) : PStr := if neg then ['-'] else []

/-- `u'%.<places>f' % value` of a float [schema/scalars.py:266-267, 299, 309] -/
def floatText (places : Nat) : FloatVal → PStr
  | .nan => "nan".toList
  | .inf neg => signText neg ++ "inf".toList
  | .fin neg q => signText neg ++ fixedText places q

/-! ### numbers -/

/-- a float from sign and size [Python float()] -/
def floatOfSize (neg : Bool) (q : Rat) : FloatVal := match toDouble q with
  | some d => .fin neg d
  | .none => .inf neg

/-- `float(text)` [Python float(); used at schema/scalars.py:248] -/
def floatOfText [Runtime] (s : PStr) : Except PyErr FloatVal := match numText false s with
  | some (.nan _) => .ok .nan
  | some (.inf neg) => .ok (.inf neg)
  | some (.num neg c e) => .ok (floatOfSize neg (c * pow10 e))
  | .none => .error .value

/-- `float(i)`: OverflowError if it is too large [Python int.__float__; used at schema/scalars.py:248] -/
def floatOfInt (i : Int) : Except PyErr FloatVal := match toDouble i.natAbs with
  | some d => .ok (.fin (decide (i < 0)) d)
  | .none => .error .arithmetic

/-- `float(decimal)` [Python Decimal.__float__; used at schema/scalars.py:248, 267] -/
def floatOfDec : DecVal → Except PyErr FloatVal
  | .nan true => .error .value
  | .nan false => .ok .nan
  | .inf neg => .ok (.inf neg)
  | .fin neg c e => .ok (floatOfSize neg (c * pow10 e))

/-- `Decimal(text)`: InvalidOperation if it is no number [Python decimal.Decimal(); used at schema/scalars.py:248] -/
def decOfText [Runtime] (s : PStr) : Except PyErr DecVal := match numText true s with
  | some (.nan sig) => .ok (.nan sig)
  | some (.inf neg) => .ok (.inf neg)
  | some (.num neg c e) => .ok (.fin neg c e)
  | .none => .error .arithmetic

/-- `Decimal(float)` is exact: n / 2^k is n * 5^k / 10^k [Python decimal.Decimal(); used at schema/scalars.py:248] -/
def decOfFloat : FloatVal → DecVal
  | .nan => .nan false
  | .inf neg => .inf neg
  | .fin neg q => .fin neg (q.num.natAbs * 5 ^ q.den.log2) (-(q.den.log2 : Int))

/-- `self.type_(value)` of Float, text stripped first [schema/scalars.py:245-250, 293-297] -/
def floatNew [Runtime] [NumberRuntime] : PyVal → Except PyErr FloatVal
  | .str s => floatOfText (strip s)
  | .int i => floatOfInt i
  | .bool b => floatOfInt (if b then 1 else 0)
  | .obj n => match floatAt n, decAt n with
    | some x, _ => .ok x
    | .none, some d => floatOfDec d
    | .none, .none => NumberRuntime.floatOther (.obj n)
  | v => NumberRuntime.floatOther v

/-- `self.type_(value)` of Decimal, text stripped first [schema/scalars.py:245-250, 303-307] -/
def decNew [Runtime] [NumberRuntime] : PyVal → Except PyErr DecVal
  | .str s => decOfText (strip s)
  | .int i => .ok (.fin (decide (i < 0)) i.natAbs 0)
  | .bool b => .ok (.fin false (if b then 1 else 0) 0)
  | .obj n => match floatAt n, decAt n with
    | some x, _ => .ok (decOfFloat x)
    | .none, some d => .ok d
    | .none, .none => NumberRuntime.decOther (.obj n)
  | v => NumberRuntime.decOther v

/-- `native < 0` of a float: False for a NaN [schema/scalars.py:252-254] -/
def floatNegative : FloatVal → Bool
  | .nan => false
  | .inf neg => neg
  | .fin neg q => neg && decide (q ≠ 0)

/-- `native < 0` of a Decimal: comparing a NaN is an InvalidOperation [schema/scalars.py:252-254] -/
def decNegative : DecVal → Except PyErr Bool
  | .nan _ => .error .arithmetic
  | .inf neg => .ok neg
  | .fin neg c _ => .ok (neg && decide (c ≠ 0))

/-- `Float`; `places` is the format's precision, 6 for `u'%f'` [schema/scalars.py:218-269, 293-300] -/
def floatType [Runtime] [NumberRuntime] (signed : Bool) (places : Nat) : ScalarType where
  adapt
    | .none => .ok .none
    | v => match floatNew v with
      | .error e => .error (if numberCatches e then .adaptation else e)
      | .ok x => if !signed && floatNegative x then .error .adaptation else .ok (floatVal x)
  serialize
    | .obj n => match floatAt n with
      | some x => .ok (floatText places x)
      | .none => .ok (pyText (.obj n))
    | v => .ok (pyText v)

/-- `Decimal`: `u'%f' % value` is that of `float(value)`; the comparison with 0 is not inside the `try` [schema/scalars.py:218-269, 303-310] -/
def decimalType [Runtime] [NumberRuntime] (signed : Bool) (places : Nat) : ScalarType where
  adapt
    | .none => .ok .none
    | v => match decNew v with
      | .error e => .error (if numberCatches e then .adaptation else e)
      | .ok x =>
        if signed then .ok (decVal x) else match decNegative x with
          | .error e => .error e
          | .ok true => .error .adaptation
          | .ok false => .ok (decVal x)
  serialize
    | .obj n => match decAt n with
      | some x => match floatOfDec x with
        | .ok y => .ok (floatText places y)
        | .error e => .error e
      | .none => .ok (pyText (.obj n))
    | v => .ok (pyText v)

end Flatland
