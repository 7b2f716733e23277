import Verif.Proofs.Numbers
import Verif.Props.Luhn
/-
C66: phone numbers, exchange codes and check digits.
-/
namespace Flatland
open Spec

section
variable [Runtime]

/-- **C66.** A text whose digits are ASCII: only the digits count. Fewer than ten is an error; exactly ten is rewritten as `(ddd) ddd-dddd`
with those digits in that order; with more the setting decides: an error, the first ten digits, or a TypeError. -/
theorem C66_phone (ext : PhoneExt) (s : PStr) (h : PlainDigits s) : PhoneOutcome ext (digitsOf s) (nanpPhone ext s) := phone_plain ext h

/-- **C66 (disagreement).** With any other digit in the text, zeros at the front do not count. -/
theorem C66_phone_other_digits (ext : PhoneExt) (s : PStr) (h : ¬ PlainDigits s) :
    PhoneOutcome ext ((digitsOf s).dropWhile (· = 0)) (nanpPhone ext s) := phone_other ext h

/-- **C66.** A rewritten number is a number: validating it again changes nothing, under every setting. -/
theorem C66_phone_idempotent (ext ext' : PhoneExt) (s t : PStr) (h : nanpPhone ext s = .ok (.setTo t)) : nanpPhone ext' t = .ok (.setTo t) :=
  phone_again h ext'

/-- **C66.** Two texts with the same digits, in ASCII, get the same answer. -/
theorem C66_phone_same_digits (ext : PhoneExt) (s t : PStr) (hs : PlainDigits s) (ht : PlainDigits t) (h : digitsOf s = digitsOf t) :
    nanpPhone ext s = nanpPhone ext t := phone_same hs ht h

/-- **C66.** On a `String` element: either an error is noted, or an exception escapes, and the element is as before; or the element has the
rewritten number as its value and as its text, and validating again succeeds and leaves it alone. -/
theorem C66_phone_element (ext : PhoneExt) (doStrip : Bool) (st : ScalarState) (s : PStr)
    (hv : st.value = .str s ∨ (st.value = .none ∧ st.u = s)) :
    (nanpPhoneValidate ext (stringType doStrip) st).1 = st ∧ (nanpPhoneValidate ext (stringType doStrip) st).2 ≠ .ok .none ∨
    ∃ t, nanpPhone ext s = .ok (.setTo t) ∧
      nanpPhoneValidate ext (stringType doStrip) st = ({ value := .str t, u := t, raw := some (.str t) }, .ok .none) ∧
      nanpPhoneValidate ext (stringType doStrip) { value := .str t, u := t, raw := some (.str t) } =
        ({ value := .str t, u := t, raw := some (.str t) }, .ok .none) := phone_element ext doStrip hv

omit [Runtime] in
/-- **C66.** An integer is valid exactly if it is an exchange code; the text of a valid element becomes its decimal form, anything else stays. -/
theorem C66_nxx (st : ScalarState) (n : Int) (h : st.value = .int n) :
    ((nanpNxx st).2 = .ok true ↔ ExchangeCode n) ∧ ((nanpNxx st).2 = .ok false ↔ ¬ ExchangeCode n) ∧
    (ExchangeCode n → (nanpNxx st).1 = { st with u := decimalInt n }) ∧ (¬ ExchangeCode n → (nanpNxx st).1 = st) := nxx_spec h

omit [Runtime] in
/-- **C66 (disagreement).** There is no upper bound: numbers of any length are accepted as exchange codes. -/
theorem C66_nxx_unbounded (n : Int) (h : 1000 ≤ n) : ExchangeCode n := nxx_big h

/-- **C66.** The Luhn validator on a number that is not negative: it ends, and notes an error exactly if the check digit is wrong. -/
theorem C66_luhn (n fuel : Nat) (hf : n < fuel) :
    (LuhnOK n → luhnValidate fuel (.int n) = some (.ok .none)) ∧ (¬ LuhnOK n → luhnValidate fuel (.int n) = some (.ok (some "invalid".toList))) := by
  obtain ⟨b, hb, hl⟩ := C45_luhn_correct_partial n fuel hf
  unfold luhnValidate
  rw [← hl]
  simp only [hb]
  refine ⟨fun h => by subst h; rfl, fun h => ?_⟩
  rw [show b = false by simpa using h]; rfl

/-- **C66 (disagreement).** On a negative number it never ends. -/
theorem C66_luhn_negative (n : Int) (h : n < 0) (fuel : Nat) : luhnValidate fuel (.int n) = none := by
  simp [luhnValidate, C45_negative_diverges n h]

/-- **C66.** Nothing is an error; a text other than the empty one raises TypeError. **Disagreement:** the empty text counts as valid. -/
theorem C66_luhn_other (fuel : Nat) (s : PStr) :
    luhnValidate fuel .none = some (.ok (some "invalid".toList)) ∧ luhnValidate fuel (.str []) = some (.ok .none) ∧
    (s ≠ [] → luhnValidate fuel (.str s) = some (.error .type)) := luhn_other fuel s

omit [Runtime] in
/-- **C66 (disagreement).** The validator of area code and exchange code together never returns a result, and takes no keywords. -/
theorem C66_npa_nxx (npa nxx : Except PyErr PyVal) (k : Nat) :
    (∃ e, npaNxxValidate npa nxx = .error e) ∧ (0 < k → npaNxxNew k = .error .type) := npaNxx_never npa nxx k

end

section
attribute [local instance] Runtime.ascii

/-- hypotheses of `C66_phone` are met: a number with punctuation -/
example : PlainDigits "(503) 555-0123".toList ∧ nanpPhone .refuse "503.555.0123".toList = .ok (.setTo "(503) 555-0123".toList) ∧
    nanpPhone .refuse "1 503 555 0123".toList = .ok (.note "noext".toList) ∧
    nanpPhone .strip "503-555-0123 x42".toList = .ok (.setTo "(503) 555-0123".toList) ∧
    nanpPhone .keep "503-555-0123 x42".toList = .error .type ∧
    nanpPhone .keep "555-0123".toList = .ok (.note "invalid".toList) := by
  refine ⟨?_, ?_, ?_, ?_, ?_, ?_⟩ <;> first | (unfold PlainDigits; decide +kernel) | decide +kernel

/-- hypotheses of `C66_nxx` are met, both ways -/
example : (nanpNxx { value := .int 503, u := "0503".toList, raw := .none }).1.u = "503".toList ∧
    ExchangeCode 503 ∧ ¬ ExchangeCode 411 ∧ ¬ ExchangeCode 199 := by
  refine ⟨by decide +kernel, ⟨by decide, fun k h1 h2 => by omega, by decide⟩, fun h => h.2.1 4 (by decide) (by decide) (by decide), fun h => absurd h.1 (by decide)⟩

end

end Flatland
