import Verif.Model.Scalars
/-! Notions used in the statements of C01/C02 that refer to scalar classes. -/
namespace Flatland
variable [Runtime]

/-- A scalar class that follows the documented contract: `adapt` fails only with AdaptationError and
`serialize` succeeds on adapted values. -/
structure Disciplined (t : ScalarType) : Prop where
  adapt_err : ∀ x e, t.adapt x = .error e → e = .adaptation
  ser_ok : ∀ x v, t.adapt x = .ok v → v ≠ .none → ∃ s, t.serialize v = .ok s

/-- text shown for a rejected input: `unicode(x)`, or `''` for `None` -/
def rejectedText : PyVal → PStr
  | .none => []
  | v => pyText v

/-- state after a history of `set` calls -/
def setMany (t : ScalarType) (st : ScalarState) (xs : List PyVal) : ScalarState :=
  xs.foldl (fun st x => (scalarSet t st x).1) st

/-- The built-in scalar classes, as configurations. -/
inductive Builtin
  | string (strip : Bool)
  | integer (signed : Bool) (width : Nat)
  | boolean (c : BoolCfg)
  | date (strip : Bool)
  | time (strip : Bool)
  | dateTime (strip : Bool)
  | enum (child : Builtin) (values : List PyVal)

/-- the class a configuration denotes -/
def Builtin.type : Builtin → ScalarType
  | .string s => stringType s
  | .integer sg w => integerType sg w
  | .boolean c => booleanType c
  | .date s => dateType s
  | .time s => timeType s
  | .dateTime s => dateTimeType s
  | .enum c vs => enumType c.type vs

/-- configurations for which the false literal is not itself read as true -/
def Builtin.Consistent : Builtin → Prop
  | .boolean c => c.false_ ≠ c.true_ ∧ c.false_ ∉ c.trueSyn
  | .enum c _ => c.Consistent
  | _ => True

/-- native values whose text form carries all of their information -/
def Builtin.Exact : Builtin → PyVal → Prop
  | .date _, .datetime .. => False
  | .time _, .time _ _ _ us => us = 0
  | .dateTime _, .datetime _ _ _ _ _ _ us => us = 0
  | .enum c _, v => c.Exact v
  | _, _ => True

/-- the scalar type at the bottom of nested Enums -/
def Builtin.base : Builtin → Builtin
  | .enum c _ => c.base
  | b => b

end Flatland
