/-
Python runtime notions used by every model file: text, exceptions, native values,
`str.strip`, `str.split`, `str.join`, `int(text)`, decimal formatting and slicing.

These are not part of /repo; they are the modelled fragment of Python 3.3 (see DESIGN.md, trusted base).
-/
namespace Flatland

/-- Python 3 text (`six.text_type`): a sequence of code points. -/
abbrev PStr := List Char

/-- Python exceptions that the modelled code can raise, as values.
`adaptation` is `flatland.exc.AdaptationError` (flatland/exc.py:3-4). -/
inductive PyErr
  | adaptation | key | index | lookup | type | value | attribute | notImplemented | assertion
  | runtime | zeroDivision
  deriving DecidableEq, Repr

/-- Python values handed to / produced by elements.  `obj n` stands for any other object
(identified by a number); floats, Decimals and user classes are of this kind.
`text` objects are `str`, `dict` keeps insertion order. -/
inductive PyVal
  | none
  | bool (b : Bool)
  | int (i : Int)
  | str (s : PStr)
  | date (y m d : Nat)
  | time (h mi s us : Nat)
  | datetime (y m d h mi s us : Nat)
  | list (xs : List PyVal)
  | dict (kvs : List (PStr × PyVal))
  | obj (n : Nat)
  deriving Inhabited

deriving instance DecidableEq for Except

mutual
/-- structural equality test (used only to decide equality of literals in examples) [no code] -/
def PyVal.beq : PyVal → PyVal → Bool
  | .none, .none => true
  | .bool a, .bool b => a == b
  | .int a, .int b => a == b
  | .str a, .str b => a == b
  | .date y m d, .date y' m' d' => y == y' && m == m' && d == d'
  | .time h m s u, .time h' m' s' u' => h == h' && m == m' && s == s' && u == u'
  | .datetime y m d h mi s u, .datetime y' m' d' h' mi' s' u' =>
      y == y' && m == m' && d == d' && h == h' && mi == mi' && s == s' && u == u'
  | .list xs, .list ys => beqList xs ys
  | .dict xs, .dict ys => beqDict xs ys
  | .obj a, .obj b => a == b
  | _, _ => false
/-- see `PyVal.beq` [no code] -/
def beqList : List PyVal → List PyVal → Bool
  | [], [] => true
  | x :: xs, y :: ys => PyVal.beq x y && beqList xs ys
  | _, _ => false
/-- see `PyVal.beq` [no code] -/
def beqDict : List (PStr × PyVal) → List (PStr × PyVal) → Bool
  | [], [] => true
  | (k, x) :: xs, (l, y) :: ys => k == l && PyVal.beq x y && beqDict xs ys
  | _, _ => false
end

mutual
theorem PyVal.beq_iff : ∀ a b : PyVal, PyVal.beq a b = true ↔ a = b
  | .list xs, b => by cases b <;> simp [PyVal.beq, beqList_iff xs]
  | .dict xs, b => by cases b <;> simp [PyVal.beq, beqDict_iff xs]
  | .none, b | .bool _, b | .int _, b | .str _, b | .date .., b | .time .., b | .datetime .., b | .obj _, b => by
    cases b <;> simp [PyVal.beq, and_assoc]
theorem beqList_iff : ∀ a b : List PyVal, beqList a b = true ↔ a = b
  | [], b => by cases b <;> simp [beqList]
  | x :: xs, b => by
    cases b with
    | nil => simp [beqList]
    | cons y ys => simp [beqList, PyVal.beq_iff x y, beqList_iff xs ys]
theorem beqDict_iff : ∀ a b : List (PStr × PyVal), beqDict a b = true ↔ a = b
  | [], b => by cases b <;> simp [beqDict]
  | (k, x) :: xs, b => by
    cases b with
    | nil => simp [beqDict]
    | cons y ys => obtain ⟨l, y⟩ := y; simp [beqDict, PyVal.beq_iff x y, beqDict_iff xs ys]
end

/-- decidable equality; no code -/
instance : DecidableEq PyVal := fun a b => decidable_of_iff _ (PyVal.beq_iff a b)

/-- Facts about the Python runtime that theorems are parametric in (never axioms).
* `digit c` – decimal digit value of `c` (what `\d` matches and `int()` accepts);
* `space c` – white space (`str.isspace`, `\s`, what `strip()` removes);
* `textObj v` – `unicode(v)` of an object which is neither text, int, bool nor None;
* `truthObj v` – `bool(v)` for `obj`;
* `intObj v` – `int(v)` for objects that are not text, int or bool. -/
class Runtime where
  digit : Char → Option Nat
  space : Char → Bool
  textObj : PyVal → PStr
  truthObj : Nat → Bool
  intObj : PyVal → Except PyErr Int
  digit_lt : ∀ c d, digit c = some d → d < 10
  digit_ascii : ∀ d, d < 10 → digit (Char.ofNat (48 + d)) = some d
  space_not_digit : ∀ c, space c = true → digit c = none
  minus_not_digit : digit '-' = none
  plus_not_digit : digit '+' = none
  colon_not_digit : digit ':' = none
  bracket_not_digit : digit ']' = none
  open_not_digit : digit '(' = none
  close_not_digit : digit ')' = none
  minus_not_space : space '-' = false
  open_not_space : space '(' = false
  plus_not_space : space '+' = false
  space_is_space : space ' ' = true
  newline_is_space : space '\n' = true

export Runtime (digit space)

/-- ASCII instance: shows that the `Runtime` assumptions are satisfiable. [no code] -/
@[reducible] def Runtime.ascii : Runtime where
  digit c := if 48 ≤ c.toNat ∧ c.toNat ≤ 57 then some (c.toNat - 48) else .none
  space c := c = ' ' || (9 ≤ c.toNat && c.toNat ≤ 13) || (28 ≤ c.toNat && c.toNat ≤ 31)
  textObj _ := "?".toList
  truthObj _ := true
  intObj _ := .error .type
  digit_lt := by
    intro c d h
    split at h <;> simp_all
    omega
  digit_ascii := by decide
  space_not_digit := by
    intro c h
    simp at h
    rcases h with (h | h) | h
    · subst h; decide
    · simp; omega
    · simp; omega
  minus_not_digit := by decide
  plus_not_digit := by decide
  colon_not_digit := by decide
  bracket_not_digit := by decide
  open_not_digit := by decide
  close_not_digit := by decide
  minus_not_space := by decide
  open_not_space := by decide
  plus_not_space := by decide
  space_is_space := by decide
  newline_is_space := by decide

/-! ### text -/

/-- ASCII digit character of `d`. [Python; used at schema/scalars.py:279, 289] -/
def digitChar (d : Nat) : Char := Char.ofNat (48 + d)

/-- `str(n)` for a natural number. [Python; used at schema/scalars.py:279, schema/containers.py:468] -/
def decimal (n : Nat) : PStr :=
  if n < 10 then [digitChar n] else decimal (n / 10) ++ [digitChar (n % 10)]
termination_by n

/-- `str(i)` / `'%i' % i` for an integer. [Python; used at schema/scalars.py:279, out/generic.py:228] -/
def decimalInt : Int → PStr
  | .ofNat n => decimal n
  | .negSucc n => '-' :: decimal (n + 1)

/-- `'%0<w>i' % n` for a natural number: zero padded to at least `w` characters. [Python; used at schema/scalars.py:525, 540, 554] -/
def padNat (w : Nat) (n : Nat) : PStr :=
  List.replicate (w - (decimal n).length) '0' ++ decimal n

/-- `'%0<w>i' % i`: the sign counts towards the width. `w = 0` is plain `'%i'`. [Python; used at schema/scalars.py:525, 540, 554] -/
def padInt (w : Nat) : Int → PStr
  | .ofNat n => padNat w n
  | .negSucc n => '-' :: padNat (w - 1) (n + 1)

/-- `s.startswith(p)`. [Python; used at schema/base.py:601, schema/containers.py:848, 859] -/
def startsWith (s p : PStr) : Bool := p.isPrefixOf s

/-- `s.lstrip()`. [Python; used at schema/scalars.py:184, 246] -/
def lstrip [Runtime] (s : PStr) : PStr := s.dropWhile space
/-- `s.rstrip()`. [Python; used at schema/scalars.py:184, 246, out/markup.py:322] -/
def rstrip [Runtime] (s : PStr) : PStr := (s.reverse.dropWhile space).reverse
/-- `s.strip()`. [Python; used at schema/scalars.py:184, 208, 246, 489] -/
def strip [Runtime] (s : PStr) : PStr := rstrip (lstrip s)

/-- `s.split(sep)` for a non-empty separator; `k` counts characters of a separator still to be skipped. [Python; used at schema/base.py:606, schema/paths.py:185, schema/compound.py:306] -/
def splitGo (sep : PStr) : Nat → PStr → PStr → List PStr
  | _, [], acc => [acc.reverse]
  | k + 1, _ :: cs, acc => splitGo sep k cs acc
  | 0, c :: cs, acc =>
    if startsWith (c :: cs) sep then acc.reverse :: splitGo sep (sep.length - 1) cs []
    else splitGo sep 0 cs (c :: acc)

/-- `s.split(sep)`. [Python; used at schema/base.py:606, schema/compound.py:306, validation/network.py:78, 99] -/
def pySplit (sep s : PStr) : List PStr := splitGo sep 0 s []

/-- `sep.join(parts)`. [Python; used at schema/base.py:479, 647, schema/containers.py:395, schema/compound.py:325] -/
def pyJoin (sep : PStr) : List PStr → PStr
  | [] => []
  | [p] => p
  | p :: q :: ps => p ++ sep ++ pyJoin sep (q :: ps)

/-- `s.replace(c, t)` for a single character `c`. [Python; used at out/generic.py:318-321, out/markup.py:312-316] -/
def replaceChar (c : Char) (t : PStr) (s : PStr) : PStr :=
  s.flatMap fun x => if x = c then t else [x]

/-! ### numbers from text -/

/-- Left-to-right decimal accumulation; `none` if a non-digit is met. [Python int(); used at schema/scalars.py:276, 494] -/
def digitsAcc [Runtime] : Nat → PStr → Option Nat
  | acc, [] => some acc
  | acc, c :: cs => match digit c with
    | some d => digitsAcc (acc * 10 + d) cs
    | .none => .none

/-- A non-empty run of digits. [Python int(); used at schema/scalars.py:276, 494] -/
def parseDigits [Runtime] (s : PStr) : Option Nat :=
  if s.isEmpty then .none else digitsAcc 0 s

/-- `int(text)`: surrounding white space, optional sign, non-empty digits (Python 3.3: no underscores). -/
def pyInt [Runtime] (s : PStr) : Option Int :=
  match strip s with
  | '-' :: ds => (parseDigits ds).map fun (n : Nat) => -(n : Int)
  | '+' :: ds => (parseDigits ds).map fun (n : Nat) => (n : Int)
  | ds => (parseDigits ds).map fun (n : Nat) => (n : Int)

/-! ### values -/

/-- `bool(v)`. Dates are true; a midnight `time` is false (Python < 3.5). -/
def truthy [Runtime] : PyVal → Bool
  | .none => false
  | .bool b => b
  | .int i => i != 0
  | .str s => !s.isEmpty
  | .date .. => true
  | .time h mi s us => !(h == 0 && mi == 0 && s == 0 && us == 0)
  | .datetime .. => true
  | .list xs => !xs.isEmpty
  | .dict kvs => !kvs.isEmpty
  | .obj n => Runtime.truthObj n

/-- `unicode(v)`. [Python; used at schema/scalars.py:83, 118, 184] -/
def pyText [Runtime] : PyVal → PStr
  | .none => "None".toList
  | .bool true => "True".toList
  | .bool false => "False".toList
  | .int i => decimalInt i
  | .str s => s
  | v => Runtime.textObj v

/-- `isinstance(v, str)`. [Python; used at schema/scalars.py:79, 245, 346] -/
def isText : PyVal → Bool
  | .str _ => true
  | _ => false

/-- `v is None`. [Python; used at schema/scalars.py:77, 90, 181, 243] -/
def isNone : PyVal → Bool
  | .none => true
  | _ => false

mutual
/-- Python `==` on the modelled values (`True == 1`; a `date` and a `datetime` are never equal). -/
def pyEq : PyVal → PyVal → Bool
  | .none, .none => true
  | .bool a, .bool b => a == b
  | .bool a, .int b => (if a then 1 else 0) == b
  | .int a, .bool b => a == (if b then 1 else 0)
  | .int a, .int b => a == b
  | .str a, .str b => a == b
  | .date y m d, .date y' m' d' => y == y' && m == m' && d == d'
  | .time h m s u, .time h' m' s' u' => h == h' && m == m' && s == s' && u == u'
  | .datetime y m d h mi s u, .datetime y' m' d' h' mi' s' u' =>
      y == y' && m == m' && d == d' && h == h' && mi == mi' && s == s' && u == u'
  | .list xs, .list ys => pyEqList xs ys
  | .dict xs, .dict ys => xs.length == ys.length && pyEqDict xs ys
  | .obj a, .obj b => a == b
  | _, _ => false
/-- element-wise `==` of lists [Python; used at schema/base.py:348] -/
def pyEqList : List PyVal → List PyVal → Bool
  | [], [] => true
  | x :: xs, y :: ys => pyEq x y && pyEqList xs ys
  | _, _ => false
/-- every item of the first dict has an equal item in the second [Python; used at schema/base.py:348] -/
def pyEqDict : List (PStr × PyVal) → List (PStr × PyVal) → Bool
  | [], _ => true
  | (k, v) :: xs, ys =>
    (match ys.lookup k with
     | some w => pyEq v w
     | .none => false) && pyEqDict xs ys
end

/-! ### slices -/

/-- CPython `PySlice_AdjustIndices`: the effective start. -/
def sliceStart (len : Int) (step : Int) : Option Int → Int
  | .none => if step < 0 then len - 1 else 0
  | some a =>
    if a < 0 then (if a + len < 0 then (if step < 0 then -1 else 0) else a + len)
    else if a ≥ len then (if step < 0 then len - 1 else len) else a

/-- CPython `PySlice_AdjustIndices`: the effective stop. -/
def sliceStop (len : Int) (step : Int) : Option Int → Int
  | .none => if step < 0 then -1 else len
  | some a =>
    if a < 0 then (if a + len < 0 then (if step < 0 then -1 else 0) else a + len)
    else if a ≥ len then (if step < 0 then len - 1 else len) else a

/-- number of indexes selected by an adjusted slice [Python; used at schema/paths.py:87] -/
def sliceCount (start stop step : Int) : Nat :=
  if step < 0 then (if stop < start then ((start - stop - 1) / (-step) + 1).toNat else 0)
  else (if start < stop then ((stop - start - 1) / step + 1).toNat else 0)

/-- `seq[a:b:c]` (with `c ≠ 0`, default 1). [Python; used at schema/paths.py:87] -/
def pySlice {α} (xs : List α) (a b : Option Int) (c : Option Int) : List α :=
  let step := c.getD 1
  let start := sliceStart xs.length step a
  let stop := sliceStop xs.length step b
  (List.range (sliceCount start stop step)).filterMap fun (k : Nat) => xs[(start + step * k).toNat]?

end Flatland
