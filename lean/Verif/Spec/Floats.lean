import Verif.Model.Floats
import Verif.Spec.Scalars
import Mathlib.Algebra.Order.Field.Power
import Mathlib.Data.Rat.Cast.Order
import Mathlib.Algebra.Order.Ring.Unbundled.Rat
/-
Specification for C85: 64 bit floats, the nearest of them, and decimal fractions with a fixed number of places.
-/
namespace Flatland.Spec

/-- the sizes that a 64 bit float can have: 53 binary digits, exponents from -1074 to 971 -/
def IsDouble (d : ℚ) : Prop := ∃ (m : ℕ) (e : ℤ), m < 2 ^ 53 ∧ -1074 ≤ e ∧ e ≤ 971 ∧ d = m * 2 ^ e

/-- `d` is the float for `q`: no float is nearer, and if another one is equally near then `d` is the one whose last binary digit is 0 (an even multiple of
the distance between the two) -/
def NearestDouble (q d : ℚ) : Prop :=
  IsDouble d ∧ (∀ d', IsDouble d' → |d - q| ≤ |d' - q|) ∧
  (∀ d', IsDouble d' → d' ≠ d → |d' - q| = |d - q| → ∃ j : ℕ, d = 2 * j * |d - d'|)

/-- what is too large for a float: from half a step above the largest float -/
def TooLarge (q : ℚ) : Prop := (2 : ℚ) ^ 1024 - 2 ^ 970 ≤ q

/-- `n` is `q` in units of the last of `places` decimal places, rounded, halves to the even neighbour -/
def RoundsTo (places : ℕ) (q : ℚ) (n : ℕ) : Prop :=
  |q * 10 ^ places - n| ≤ 1 / 2 ∧ (|q * 10 ^ places - n| = 1 / 2 → n % 2 = 0)

/-- the number that digits stand for -/
def digitsValue (s : PStr) : ℕ := s.foldl (fun a c => a * 10 + (c.toNat - 48)) 0

/-- an ASCII digit -/
def IsAsciiDigit (c : Char) : Prop := '0' ≤ c ∧ c ≤ '9'

/-- `n` units of the last of `places` decimal places as text: digits, without needless zeros in front, and if there are places a point and so many digits -/
def ShownAs (places n : ℕ) (s : PStr) : Prop :=
  ∃ whole frac : PStr, s = whole ++ (if places = 0 then [] else '.' :: frac) ∧ frac.length = places ∧
    (∀ c ∈ whole ++ frac, IsAsciiDigit c) ∧ digitsValue (whole ++ frac) = n ∧ whole ≠ [] ∧ (whole.head? = some '0' → whole = ['0'])

/-- the size of a number given by a coefficient and a decimal exponent -/
def decSize (c : ℕ) (e : ℤ) : ℚ := c * 10 ^ e

section
variable [Runtime]

/-- digits, or nothing -/
def AllDigits (s : PStr) : Prop := ∀ c ∈ s, ∃ d, digit c = some d

/-- `Mantissa s n k`: digits with or without a point, `n` without the point, `k` digits after it -/
inductive Mantissa : PStr → ℕ → ℕ → Prop
  | whole {s n} : DigitText s n → Mantissa s n 0
  | point {w f n} : AllDigits w → AllDigits f → DigitText (w ++ f) n → Mantissa (w ++ '.' :: f) n f.length

/-- `Exponent s x`: nothing, or `e` or `E` and a whole number -/
inductive Exponent : PStr → ℤ → Prop
  | nothing : Exponent [] 0
  | plain {c s n} : c ∈ ['e', 'E'] → DigitText s n → Exponent (c :: s) n
  | plus {c s n} : c ∈ ['e', 'E'] → DigitText s n → Exponent (c :: '+' :: s) n
  | minus {c s n} : c ∈ ['e', 'E'] → DigitText s n → Exponent (c :: '-' :: s) (-(n : ℤ))

/-- an optional sign -/
inductive Sign : PStr → Bool → Prop
  | nothing : Sign [] false
  | plus : Sign ['+'] false
  | minus : Sign ['-'] true

/-- `Numeral s neg c e`: the text says plus or minus `c` times ten to the power of `e` -/
inductive Numeral : PStr → Bool → ℕ → ℤ → Prop
  | intro {sg m x neg n k e} : Sign sg neg → Mantissa m n k → Exponent x e → Numeral (sg ++ m ++ x) neg n (e - k)

/-- `Word s neg w`: the text is the word, in any case, with an optional sign -/
inductive Word : PStr → Bool → PStr → Prop
  | intro {sg t neg w} : Sign sg neg → t.map Char.toLower = w → Word (sg ++ t) neg w

/-- what `float()` makes of a text -/
inductive FloatMeans : PStr → FloatVal → Prop
  | number {s neg c e d} : Numeral s neg c e → ¬ TooLarge (decSize c e) → NearestDouble (decSize c e) d → FloatMeans s (.fin neg d)
  | tooLarge {s neg c e} : Numeral s neg c e → TooLarge (decSize c e) → FloatMeans s (.inf neg)
  | inf {s neg} : Word s neg "inf".toList → FloatMeans s (.inf neg)
  | infinity {s neg} : Word s neg "infinity".toList → FloatMeans s (.inf neg)
  | nan {s neg} : Word s neg "nan".toList → FloatMeans s .nan

/-- what `decimal.Decimal()` makes of a text: exactly the number written -/
inductive DecMeans : PStr → DecVal → Prop
  | number {s neg c e} : Numeral s neg c e → DecMeans s (.fin neg c e)
  | inf {s neg} : Word s neg "inf".toList → DecMeans s (.inf neg)
  | infinity {s neg} : Word s neg "infinity".toList → DecMeans s (.inf neg)
  | nan {s neg ds} : Word s neg "nan".toList → AllDigits ds → DecMeans (s ++ ds) (.nan false)
  | snan {s neg ds} : Word s neg "snan".toList → AllDigits ds → DecMeans (s ++ ds) (.nan true)

end

/-- what can be in a Float element: NaN, an infinity, or a number that is a float -/
def IsFloat : FloatVal → Prop
  | .fin _ d => IsDouble d
  | _ => True

/-- less than zero -/
def BelowZero : FloatVal → Prop
  | .nan => False
  | .inf neg => neg = true
  | .fin neg d => neg = true ∧ d ≠ 0

/-- the text of a float with `places` decimal places: the number rounded, with a minus sign also for a negative zero -/
def ShowsFloat (places : ℕ) : FloatVal → PStr → Prop
  | .nan, s => s = "nan".toList
  | .inf neg, s => s = (if neg then "-inf".toList else "inf".toList)
  | .fin neg d, s => ∃ n t, RoundsTo places d n ∧ ShownAs places n t ∧ s = (if neg then '-' :: t else t)

/-- `x` is the float that a Decimal is turned into (a signaling NaN cannot be) -/
inductive DecAsFloat : DecVal → FloatVal → Prop
  | number {neg c e d} : ¬ TooLarge (decSize c e) → NearestDouble (decSize c e) d → DecAsFloat (.fin neg c e) (.fin neg d)
  | tooLarge {neg c e} : TooLarge (decSize c e) → DecAsFloat (.fin neg c e) (.inf neg)
  | inf {neg} : DecAsFloat (.inf neg) (.inf neg)
  | nan : DecAsFloat (.nan false) .nan

/-- less than zero -/
def DecBelowZero : DecVal → Prop
  | .nan _ => False
  | .inf neg => neg = true
  | .fin neg c _ => neg = true ∧ c ≠ 0

section
variable [Runtime] [NumberRuntime]

/-- the values of which it is known here what `float()` and `Decimal()` make of them: text, int, bool, float and Decimal -/
inductive NumberInput : PyVal → Prop
  | text {s} : NumberInput (.str s)
  | int {i} : NumberInput (.int i)
  | bool {b} : NumberInput (.bool b)
  | float {x} : IsFloat x → NumberInput (floatVal x)
  | dec {d} : NumberInput (decVal d)

/-- `FloatOf v x`: the float that a Float field makes of `v` -/
inductive FloatOf : PyVal → FloatVal → Prop
  | text {s x} : FloatMeans (strip s) x → FloatOf (.str s) x
  | int {i : ℤ} {d} : ¬ TooLarge |(i : ℚ)| → NearestDouble |(i : ℚ)| d → FloatOf (.int i) (.fin (decide (i < 0)) d)
  | true : FloatOf (.bool true) (.fin false 1)
  | false : FloatOf (.bool false) (.fin false 0)
  | float {x} : IsFloat x → FloatOf (floatVal x) x
  | dec {d x} : DecAsFloat d x → FloatOf (decVal d) x

/-- `DecOf v d`: the Decimal that a Decimal field makes of `v`; always exactly the number given -/
inductive DecOf : PyVal → DecVal → Prop
  | text {s d} : DecMeans (strip s) d → DecOf (.str s) d
  | int {i : ℤ} {c} : decSize c 0 = |(i : ℚ)| → DecOf (.int i) (.fin (decide (i < 0)) c 0)
  | true : DecOf (.bool true) (.fin false 1 0)
  | false : DecOf (.bool false) (.fin false 0 0)
  | float {neg q c e} : IsDouble q → decSize c e = q → DecOf (floatVal (.fin neg q)) (.fin neg c e)
  | floatNan : DecOf (floatVal .nan) (.nan Bool.false)
  | floatInf {neg} : DecOf (floatVal (.inf neg)) (.inf neg)
  | dec {d} : DecOf (decVal d) d

/-- the same number (or NaN of the same kind, or infinity) -/
inductive SameNumber : DecVal → DecVal → Prop
  | nan {b} : SameNumber (.nan b) (.nan b)
  | inf {neg} : SameNumber (.inf neg) (.inf neg)
  | fin {neg c e c' e'} : decSize c e = decSize c' e' → SameNumber (.fin neg c e) (.fin neg c' e')

/-- What `set(v)` of a Decimal field does if `d` is the Decimal made of `v`: the field's new state, and the answer or the exception.
* `shown`: the field holds `d` and shows the float nearest to it;
* `negative`: an unsigned field refuses it;
* `notComparable`: an unsigned field raises an exception for a NaN, and keeps its value and text;
* `notShowable`: a signaling NaN is held, but raises an exception, and the text is still the old one. -/
inductive DecSets (signed : Bool) (places : ℕ) (st : ScalarState) (v : PyVal) : DecVal → ScalarState × Except PyErr Bool → Prop
  | shown {d x u} : signed = true ∨ ((∀ b, d ≠ .nan b) ∧ ¬ DecBelowZero d) → DecAsFloat d x → ShowsFloat places x u →
      DecSets signed places st v d (⟨decVal d, u, some v⟩, .ok true)
  | negative {d} : signed = false → DecBelowZero d → DecSets signed places st v d (⟨.none, pyText v, some v⟩, .ok false)
  | notComparable {b} : signed = false → DecSets signed places st v (.nan b) ({ st with raw := some v }, .error .arithmetic)
  | notShowable : signed = true → DecSets signed places st v (.nan true) (⟨decVal (.nan true), st.u, some v⟩, .error .value)

/-- a Float class -/
def IsFloatType (t : ScalarType) : Prop := ∃ signed places, t = floatType signed places

/-- a Decimal class -/
def IsDecimalType (t : ScalarType) : Prop := ∃ signed places, t = decimalType signed places

end

end Flatland.Spec
