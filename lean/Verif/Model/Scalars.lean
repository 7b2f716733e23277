import Verif.Model.Py
/-
Model of flatland/schema/scalars.py: Scalar.set and the built-in adapt/serialize pairs.
-/
namespace Flatland

/-- The data a scalar element carries: `.value`, `.u`, `.raw` (`none` = Unset). flatland/schema/base.py:130-153. -/
structure ScalarState where
  value : PyVal
  u : PStr
  raw : Option PyVal

/-- Initial state of a fresh scalar (flatland/schema/base.py:100-110 class defaults, `Element.value = None`,
`Element.u = u''`, `raw = Unset`). -/
def ScalarState.fresh : ScalarState := ⟨.none, [], .none⟩

/-- A Scalar (sub)class: its `adapt` and `serialize` methods, flatland/schema/scalars.py:96-118.
Both may raise. -/
structure ScalarType where
  adapt : PyVal → Except PyErr PyVal
  serialize : PyVal → Except PyErr PStr

/-- `Scalar.set`, flatland/schema/scalars.py:53-94.  Returns the new state (also when an
exception escapes) and either the return value or the escaping exception.
Simplified: `unicode(value)` is total (no UnicodeDecodeError retry, Python 3). -/
def scalarSet [Runtime] (t : ScalarType) (st : ScalarState) (v : PyVal) : ScalarState × Except PyErr Bool :=
  match t.adapt v with
  | .error .adaptation =>
    let u := match v with
      | .none => []
      | .str s => s
      | w => pyText w
    ({ value := .none, u := u, raw := some v }, .ok false)
  | .error e => ({ st with raw := some v }, .error e)
  | .ok .none => ({ value := .none, u := [], raw := some v }, .ok true)
  | .ok w => match t.serialize w with
    | .ok u => ({ value := w, u := u, raw := some v }, .ok true)
    | .error e => ({ value := w, u := st.u, raw := some v }, .error e)

/-- `Scalar.serialize` default, flatland/schema/scalars.py:106-118. -/
def baseSerialize [Runtime] (v : PyVal) : Except PyErr PStr := .ok (pyText v)

/-- `Scalar.__bool__`, flatland/schema/scalars.py:134-136. -/
def scalarBool [Runtime] (st : ScalarState) : Bool := !st.u.isEmpty && truthy st.value

/-! ### String -/

/-- `String`, flatland/schema/scalars.py:166-215; `strip` is the class attribute. -/
def stringType [Runtime] (doStrip : Bool) : ScalarType where
  adapt
    | .none => .ok .none
    | v => .ok (.str (if doStrip then strip (pyText v) else pyText v))
  serialize
    | .none => .ok []
    | v => .ok (if doStrip then strip (pyText v) else pyText v)

/-- `String.is_empty`, flatland/schema/scalars.py:212-215. -/
def stringIsEmpty [Runtime] (st : ScalarState) : Bool := !truthy st.value && st.u == []

/-! ### Integer / Long -/

/-- `int(value)` after `Number.adapt`'s stripping, flatland/schema/scalars.py:245-250.
Text: parse; int: itself; bool: 0/1; dates, lists, dicts: TypeError; other objects: the runtime. -/
def intOf [Runtime] : PyVal → Except PyErr Int
  | .str s => match pyInt (strip s) with
    | some i => .ok i
    | .none => .error .value
  | .int i => .ok i
  | .bool b => .ok (if b then 1 else 0)
  | .obj n => Runtime.intObj (.obj n)
  | _ => .error .type

/-- exceptions caught by `Number.adapt` (`ValueError`, `TypeError`, `ArithmeticError`), scalars.py:249. -/
def numberCatches : PyErr → Bool
  | .value | .type | .zeroDivision => true
  | _ => false

/-- `Integer`/`Long`, flatland/schema/scalars.py:218-290. `width` abstracts `format`: `u'%i'` (0) or `u'%0<w>i'`. -/
def integerType [Runtime] (signed : Bool) (width : Nat) : ScalarType where
  adapt
    | .none => .ok .none
    | v => match intOf v with
      | .error e => .error (if numberCatches e then .adaptation else e)
      | .ok i => if !signed && decide (i < 0) then .error .adaptation else .ok (.int i)
  serialize
    | .int i => .ok (padInt width i)
    | v => .ok (pyText v)

/-! ### Boolean -/

/-- class attributes of `Boolean`, flatland/schema/scalars.py:316-332. -/
structure BoolCfg where
  true_ : PStr := "1".toList
  trueSyn : List PStr := ["on".toList, "true".toList, "True".toList, "1".toList]
  false_ : PStr := []
  falseSyn : List PStr := ["off".toList, "false".toList, "False".toList, "0".toList, []]

/-- `Boolean`, flatland/schema/scalars.py:334-360. -/
def booleanType [Runtime] (c : BoolCfg) : ScalarType where
  adapt
    | .str s =>
      if s == c.true_ || c.trueSyn.contains s then .ok (.bool true)
      else if s == c.false_ || c.falseSyn.contains s then .ok (.bool false)
      else .error .adaptation
    | v => .ok (.bool (truthy v))
  serialize v := .ok (if truthy v then c.true_ else c.false_)

/-! ### Constrained / Enum -/

/-- `Constrained`, flatland/schema/scalars.py:402-425, over a child type and a `valid_value` predicate
(the predicate sees the adapted value; its `element` argument is not modelled). -/
def constrainedType (child : ScalarType) (validValue : PyVal → Bool) : ScalarType where
  adapt v := do
    let w ← child.adapt v
    if validValue w then .ok w else .error .adaptation
  serialize := child.serialize

/-- `Enum.valid_value`, flatland/schema/scalars.py:460-462 (`value in self.valid_values`). -/
def enumValid (validValues : List PyVal) (v : PyVal) : Bool := validValues.any (pyEq v)

/-- `Enum`, flatland/schema/scalars.py:428-462. -/
def enumType (child : ScalarType) (validValues : List PyVal) : ScalarType :=
  constrainedType child (enumValid validValues)

/-! ### Temporal -/

/-- leap years of the proleptic Gregorian calendar (`datetime` module). [Python datetime; used at schema/scalars.py:495] -/
def isLeap (y : Nat) : Bool := y % 4 == 0 && (y % 100 != 0 || y % 400 == 0)

/-- days in month `m` of year `y` (`datetime` module). [Python datetime; used at schema/scalars.py:495] -/
def daysInMonth (y m : Nat) : Nat :=
  if m == 2 then (if isLeap y then 29 else 28)
  else if m == 4 || m == 6 || m == 9 || m == 11 then 30
  else 31

/-- arguments accepted by `datetime.date(y, m, d)`. [Python datetime; used at schema/scalars.py:495] -/
def validDate (y m d : Nat) : Bool :=
  decide (1 ≤ y) && decide (y ≤ 9999) && decide (1 ≤ m) && decide (m ≤ 12) &&
  decide (1 ≤ d) && decide (d ≤ daysInMonth y m)

/-- arguments accepted by `datetime.time(h, mi, s)`. [Python datetime; used at schema/scalars.py:495] -/
def validTime (h mi s : Nat) : Bool := decide (h < 24) && decide (mi < 60) && decide (s < 60)

/-- One regex item: exactly `w` digits (a named group `\d{w}`) or a literal character. [schema/scalars.py:522-524, 538-539, 552-553] -/
inductive RxItem
  | digits (w : Nat)
  | lit (c : Char)

/-- `re.match` of a sequence of fixed-width items anchored by `^` and `$` (`$` also matches before a
final newline); returns the integers of the groups. flatland/schema/scalars.py:490-494. -/
def rxMatch [Runtime] : List RxItem → PStr → Option (List Nat)
  | [], s => if s = [] ∨ s = ['\n'] then some [] else .none
  | .lit c :: rest, s => match s with
    | x :: xs => if x = c then rxMatch rest xs else .none
    | [] => .none
  | .digits w :: rest, s =>
    if s.length < w then .none else
    match digitsAcc 0 (s.take w), rxMatch rest (s.drop w) with
    | some n, some ns => some (n :: ns)
    | _, _ => .none

/-- `DateTime.regex`, scalars.py:522-524. -/
def dateTimeRx : List RxItem :=
  [.digits 4, .lit '-', .digits 2, .lit '-', .digits 2, .lit ' ',
   .digits 2, .lit ':', .digits 2, .lit ':', .digits 2]
/-- `Date.regex`, scalars.py:538-539. -/
def dateRx : List RxItem := [.digits 4, .lit '-', .digits 2, .lit '-', .digits 2]
/-- `Time.regex`, scalars.py:552-553. -/
def timeRx : List RxItem := [.digits 2, .lit ':', .digits 2, .lit ':', .digits 2]

/-- `Temporal.adapt`'s text branch, scalars.py:487-497: optional strip, regex match, construct. -/
def temporalText [Runtime] (rx : List RxItem) (mk : List Nat → Option PyVal) (doStrip : Bool) (s : PStr) :
    Except PyErr PyVal :=
  match rxMatch rx (if doStrip then strip s else s) with
  | .none => .error .adaptation
  | some ns => match mk ns with
    | .none => .error .adaptation
    | some v => .ok v

/-- `Date.format`, scalars.py:540. -/
def fmtDate (y m d : Nat) : PStr := padNat 4 y ++ '-' :: padNat 2 m ++ '-' :: padNat 2 d
/-- `Time.format`, scalars.py:554. -/
def fmtTime (h mi s : Nat) : PStr := padNat 2 h ++ ':' :: padNat 2 mi ++ ':' :: padNat 2 s

/-- `datetime.date(*args)`; `none` = ValueError. [schema/scalars.py:495, 537] -/
def mkDate : List Nat → Option PyVal
  | [y, m, d] => if validDate y m d then some (.date y m d) else .none
  | _ => .none
/-- `datetime.time(*args)`. [schema/scalars.py:495, 551] -/
def mkTime : List Nat → Option PyVal
  | [h, mi, s] => if validTime h mi s then some (.time h mi s 0) else .none
  | _ => .none
/-- `datetime.datetime(*args)`. [schema/scalars.py:495, 521] -/
def mkDateTime : List Nat → Option PyVal
  | [y, m, d, h, mi, s] =>
    if validDate y m d && validTime h mi s then some (.datetime y m d h mi s 0) else .none
  | _ => .none

/-- `Date`, scalars.py:530-541.  `datetime` is a subclass of `date`, so a datetime passes unchanged. -/
def dateType [Runtime] (doStrip : Bool) : ScalarType where
  adapt
    | .none => .ok .none
    | .date y m d => .ok (.date y m d)
    | .datetime y m d h mi s us => .ok (.datetime y m d h mi s us)
    | .str s => temporalText dateRx mkDate doStrip s
    | _ => .error .adaptation
  serialize
    | .date y m d => .ok (fmtDate y m d)
    | .datetime y m d _ _ _ _ => .ok (fmtDate y m d)
    | v => .ok (pyText v)

/-- `Time`, scalars.py:544-555. -/
def timeType [Runtime] (doStrip : Bool) : ScalarType where
  adapt
    | .none => .ok .none
    | .time h mi s us => .ok (.time h mi s us)
    | .str s => temporalText timeRx mkTime doStrip s
    | _ => .error .adaptation
  serialize
    | .time h mi s _ => .ok (fmtTime h mi s)
    | v => .ok (pyText v)

/-- `DateTime`, scalars.py:514-527. -/
def dateTimeType [Runtime] (doStrip : Bool) : ScalarType where
  adapt
    | .none => .ok .none
    | .datetime y m d h mi s us => .ok (.datetime y m d h mi s us)
    | .str s => temporalText dateTimeRx mkDateTime doStrip s
    | _ => .error .adaptation
  serialize
    | .datetime y m d h mi s _ => .ok (fmtDate y m d ++ ' ' :: fmtTime h mi s)
    | v => .ok (pyText v)

end Flatland
