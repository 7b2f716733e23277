import Verif.Model.CreditCard
import Verif.Model.Validators
/-
Model of flatland/validation/number.py and flatland/validation/string.py.
-/
namespace Flatland

/-! ### NANPphone, validation/string.py -/

/-- the `extensions` setting: false, 'strip', or another true value [validation/string.py:18-20] -/
inductive PhoneExt | refuse | strip | keep
  deriving DecidableEq

/-- what a validator does that may replace the value: note an error, or set the element to a text and return True [validation/string.py:22-46] -/
inductive PhoneResult
  | note (key : PStr)
  | setTo (text : PStr)
  deriving DecidableEq

/-- `'(%03i) %03i-%04i' % (int(value[0:3]), int(value[3:6]), int(value[6:10]))`; `int('')` raises ValueError [validation/string.py:15, 34-36] -/
def phoneLine [Runtime] (value : PStr) : Except PyErr PStr :=
  match pyInt (value.take 3), pyInt ((value.drop 3).take 3), pyInt ((value.drop 6).take 4) with
  | some a, some b, some c => .ok ('(' :: padInt 3 a ++ ") ".toList ++ padInt 3 b ++ '-' :: padInt 4 c)
  | _, _, _ => .error .value

/-- `re_cleaner.sub('', value)` [validation/string.py:13, 24] -/
def phoneClean [Runtime] (s : PStr) : PStr := s.filter isDigit

/-- `re_lowbit.match(value)` for a text that consists of digits [validation/string.py:14, 29] -/
def lowbit (s : PStr) : Bool := s != [] && s.all isAsciiDigit

/-- "Translate to single-byte numbers", validation/string.py:29-31 -/
def phoneAscii [Runtime] (s : PStr) : Except PyErr PStr :=
  if lowbit s then .ok s
  else match pyInt s with
    | some i => .ok (decimalInt i)
    | .none => .error .value

/-- `NANPphone.validate` on a text, validation/string.py:22-46 (up to `element.set`). `'%03i' % text` raises TypeError. -/
def nanpPhone [Runtime] (ext : PhoneExt) (value : PStr) : Except PyErr PhoneResult :=
  let value := phoneClean value
  if value = [] then .ok (.note "invalid".toList)
  else match phoneAscii value with
    | .error e => .error e
    | .ok value =>
      if value.length < 10 then .ok (.note "invalid".toList)
      else if value.length = 10 ∨ ext = .strip then (phoneLine value).map .setTo
      else if ext = .refuse then .ok (.note "noext".toList)
      else .error .type

/-- `NANPphone.validate` of an element of a scalar type: the state, the error noted, and the result of the validation.
`value` is `u` if the element has no value; a value that is not text raises TypeError in `re.sub`. [validation/string.py:22-46] -/
def nanpPhoneValidate [Runtime] (ext : PhoneExt) (t : ScalarType) (st : ScalarState) : ScalarState × Except PyErr (Option PStr) :=
  match (if isNone st.value then PyVal.str st.u else st.value) with
  | .str s =>
    match nanpPhone ext s with
    | .error e => (st, .error e)
    | .ok (.note key) => (st, .ok (some key))
    | .ok (.setTo text) =>
      match scalarSet t st (.str text) with
      | (st', .error e) => (st', .error e)
      | (st', .ok _) => (st', .ok .none)
  | _ => (st, .error .type)

/-! ### validation/number.py -/

/-- the numbers `NANPnxx` refuses, validation/number.py:18-20 -/
def nxxRefused : List Int := [311, 411, 511, 611, 711, 811, 911, 555, 990, 959, 958, 950, 700, 976]

/-- `NANPnxx.validate`, validation/number.py:12-24: the state and whether it is valid; no error is noted. Comparing text with a number raises. -/
def nanpNxx (st : ScalarState) : ScalarState × Except PyErr Bool :=
  match st.value with
  | .none => (st, .ok false)
  | .int n => if n < 200 ∨ n ∈ nxxRefused then (st, .ok false) else ({ st with u := decimalInt n }, .ok true)
  | .bool _ => (st, .ok false)
  | _ => (st, .error .type)

/-- `Luhn10.validate`, validation/number.py:79-87: the error noted, if any; `fuel` bounds the loop of `luhn10`, the outer `none` means that it is
still running. Something that is not a number but false, such as '', ends the loop at once; otherwise `//=` raises TypeError. -/
def luhnValidate [Runtime] (fuel : Nat) (value : PyVal) : Option (Except PyErr (Option PStr)) :=
  match value with
  | .none => some (.ok (some "invalid".toList))
  | .int n => (luhn10 fuel n).map fun ok => .ok (if ok then .none else some "invalid".toList)
  | .bool b => (luhn10 fuel (if b then 1 else 0)).map fun ok => .ok (if ok then .none else some "invalid".toList)
  | v => some (if truthy v then .error .type else .ok .none)

/-- `NANPnpa_nxx.__init__`, validation/number.py:33-44: keywords are passed on as positional arguments, which `Validator.__init__` does not take. -/
def npaNxxNew (keywords : Nat) : Except PyErr Unit := if keywords = 0 then .ok () else .error .type

/-- `NANPnpa_nxx.validate`, validation/number.py:46-53: the two elements are looked up, then `self.errors_to` is used, which `__init__` never sets.
What comes after it is not modelled: it is never reached. -/
def npaNxxValidate (npa nxx : Except PyErr PyVal) : Except PyErr Bool :=
  match npa with
  | .error e => .error e
  | .ok _ => match nxx with
    | .error e => .error e
    | .ok _ => .error .attribute

end Flatland
