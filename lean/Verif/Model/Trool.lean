import Verif.Model.Py
/-
Model of flatland.util.Maybe (flatland/util/base.py:302-355) and parse_trool (flatland/out/util.py).
-/
namespace Flatland

/-- an operand: a bool, Maybe, or any other object, of which we only assume that it does not itself implement `&` or `|` with Maybe [util/base.py:305-319] -/
inductive Operand where
  | bool (b : Bool) | maybe | other (n : Nat)
  deriving DecidableEq, Repr

/-- `Maybe.__and__` and `__rand__`, flatland/util/base.py:305-311; `none` is NotImplemented. -/
def maybeAnd : Operand → Option Operand
  | .bool true => some .maybe
  | .maybe => some .maybe
  | .bool false => some (.bool false)
  | .other _ => .none

/-- `Maybe.__or__` and `__ror__`, flatland/util/base.py:313-319. -/
def maybeOr : Operand → Option Operand
  | .bool false => some .maybe
  | .maybe => some .maybe
  | .bool true => some (.bool true)
  | .other _ => .none

/-- what the interpreter makes of NotImplemented from both sides [Python operators; used at util/base.py:310, 318] -/
def orTypeError : Option Operand → Except PyErr Operand
  | some x => .ok x
  | .none => .error .type

/-- `a & b`: `bool.__and__` returns NotImplemented for Maybe, then `__rand__` is asked. Two other objects: not modelled (TypeError). [util/base.py:305-311] -/
def troolAnd : Operand → Operand → Except PyErr Operand
  | .bool a, .bool b => .ok (.bool (a && b))
  | .maybe, b => orTypeError (maybeAnd b)
  | a, .maybe => orTypeError (maybeAnd a)
  | _, _ => .error .type

/-- `a | b` [util/base.py:313-319] -/
def troolOr : Operand → Operand → Except PyErr Operand
  | .bool a, .bool b => .ok (.bool (a || b))
  | .maybe, b => orTypeError (maybeOr b)
  | a, .maybe => orTypeError (maybeOr a)
  | _, _ => .error .type

/-- `Maybe.not_`, flatland/util/base.py:321-334. -/
def troolNot : Operand → Except PyErr Operand
  | .maybe => .ok .maybe
  | .bool b => .ok (.bool (!b))
  | .other _ => .error .type

/-- `Maybe.truth`, flatland/util/base.py:336-344. -/
def troolTruth : Operand → Except PyErr Bool
  | .maybe => .ok true
  | .bool b => .ok b
  | .other _ => .error .type

/-- `bool(x)`; for Maybe `__bool__`, flatland/util/base.py:346-348. -/
def troolBool (truthObj : Nat → Bool) : Operand → Except PyErr Bool
  | .maybe => .error .notImplemented
  | .bool b => .ok b
  | .other n => .ok (truthObj n)

/-- `str.lower`: only what the theorems need of it [Python str.lower; used at out/util.py:15] -/
class Casing where
  lower : PStr → PStr
  idem : ∀ s, lower (lower s) = lower s
  ascii : ∀ s : PStr, (∀ c ∈ s, c.toNat < 128) → lower s = s.map fun c => if 65 ≤ c.toNat ∧ c.toNat ≤ 90 then Char.ofNat (c.toNat + 32) else c

/-- `YES`, flatland/out/util.py:5 -/
def troolYes : List PStr := ["1".toList, "true".toList, "True".toList, "t".toList, "on".toList, "yes".toList]
/-- `NO`, flatland/out/util.py:6 -/
def troolNo : List PStr := ["0".toList, "false".toList, "False".toList, "nil".toList, "off".toList, "no".toList]

/-- A value given for an option or an attribute: text, a Markup object (text with `__html__`), True/False, Maybe, None, an int, another
object. [out/markup.py:257-260, out/generic.py:254-272] -/
inductive HtmlVal where
  | text (s : PStr) | markup (s : PStr) | bool (b : Bool) | maybe | none | int (i : Int) | obj (n : Nat)
  deriving DecidableEq, Repr

/-- `six.text_type(value)` of a value that is not text [Python str(); used at out/util.py:14] -/
def HtmlVal.pyStr [Runtime] : HtmlVal → PStr
  | .text s => s
  | .markup s => s
  | .bool b => if b then "True".toList else "False".toList
  | .maybe => "Maybe".toList
  | .none => "None".toList
  | .int i => decimalInt i
  | .obj n => Runtime.textObj (.obj n)

/-- `parse_trool`, flatland/out/util.py:10-22; the answer is `.bool _` or `.maybe`. -/
def parseTrool [Runtime] [Casing] (v : HtmlVal) : HtmlVal :=
  match v with
  | .bool b => .bool b
  | .maybe => .maybe
  | v =>
    let s := Casing.lower v.pyStr
    if s ∈ troolYes then .bool true
    else if s ∈ troolNo then .bool false
    else .maybe

end Flatland
