import Verif.Conformance.Scalars
import Verif.Model.RichValues
import Verif.Model.RichTree
import Verif.Model.Refs
/-! /repo/tests/schema/test_constrained.py, test_compound.py (DateYYYYMMDD, JoinedString and flat data of Compounds), test_refs.py -/
namespace Flatland.Conf
open Flatland

attribute [local instance] Runtime.ascii

/-! test_constrained_no_default_validity, test_constrained_instance_override -/

/-- `make_checker(*ok_values)` [no code] -/
def oneOf (vs : List PyVal) (v : PyVal) : Bool := vs.any (pyEq v)

example : sets (constrainedType (stringType true) fun _ => false) (s "anything") .none "anything" false := by decide +kernel
example : sets (constrainedType (stringType true) (oneOf [s "a"])) (s "a") (s "a") "a" true ∧
  sets (constrainedType (stringType true) (oneOf [s "a"])) (s "b") .none "b" false := by decide +kernel
example : sets (constrainedType (integerType true 0) (oneOf [.int 1, .int 2])) (s "1") (.int 1) "1" true ∧
  sets (constrainedType (integerType true 0) (oneOf [.int 1, .int 2])) (s "2") (.int 2) "2" true ∧
  sets (constrainedType (integerType true 0) (oneOf [.int 1, .int 2])) (s "3") .none "3" false ∧
  sets (constrainedType (integerType true 0) (oneOf [.int 1, .int 2])) (s "x") .none "x" false := by decide +kernel

/-! test_constrained_instance_contrived -/

/-- what CustomInteger.adapt makes of a text that is no number [no code] -/
def orNone (r : Except PyErr PyVal) : Except PyErr PyVal := match r with
  | .ok v => .ok v
  | .error _ => .ok .none

/-- `CustomInteger` [no code] -/
def customInteger : ScalarType := { integerType true 0 with adapt := fun v => orNone ((integerType true 0).adapt v) }

example : sets (constrainedType customInteger (oneOf [.int 1, .none])) (s "1") (.int 1) "1" true ∧
  sets (constrainedType customInteger (oneOf [.int 1, .none])) (s "2") .none "2" false ∧
  sets (constrainedType customInteger (oneOf [.int 1, .none])) (s "x") .none "" true ∧
  sets (constrainedType customInteger (oneOf [.int 1, .none])) (s "") .none "" true := by decide +kernel

/-! test_default_enum, test_typed_enum -/
example : sets (enumType (stringType true) [s "a", s "b", s "c"]) (s "b") (s "b") "b" true ∧
  sets (enumType (stringType true) [s "a", s "b", s "c"]) (s "d") .none "d" false ∧
  sets (enumType (stringType true) [s "a", s "b", s "c"]) .none .none "" false := by decide +kernel
example : sets (enumType (integerType true 0) [.int 1, .int 2, .int 3]) (s "3") (.int 3) "3" true ∧
  sets (enumType (integerType true 0) [.int 1, .int 2, .int 3]) (s "x") .none "x" false ∧
  sets (enumType (integerType true 0) [.int 1, .int 2, .int 3]) (s "5") .none "5" false := by decide +kernel

/-! TestDoubleField.test_from_flat, test_flatten -/

/-- `Double.compose`, the text [no code] -/
def doubleText (ks : List Elem) : PStr := match ks with
  | [.scalar _ x, .scalar _ y] => if x.u ≠ [] ∧ y.u ≠ [] then x.u ++ 'x' :: y.u else []
  | _ => []

/-- `Double.named('s')` [no code] -/
def double : RSchema := .compound (hd "s") doubleText [int "x", int "y"]

/-- the three texts [no code] -/
def us3 (r : Except PyErr RElem) : Except PyErr (List PStr) := match r with
  | .error er => .error er
  | .ok e => .ok (e.text :: e.fields.map fun k => k.state.u)

/-- as texts [no code] -/
def texts (ts : List String) : List PStr := ts.map String.toList

example : us3 (rFromFlat us double []) = .ok (texts ["", "", ""]) ∧ us3 (rFromFlat us double (flat [("s", "1x2")])) = .ok (texts ["", "", ""]) ∧
  us3 (rFromFlat us double (flat [("s_x", "1")])) = .ok (texts ["", "1", ""]) ∧
  us3 (rFromFlat us double (flat [("s_x", "1"), ("s_y", "2")])) = .ok (texts ["1x2", "1", "2"]) ∧
  us3 (rFromFlat us double (flat [("s_x", "1"), ("s_y", "2"), ("s", "5x5")])) = .ok (texts ["1x2", "1", "2"]) := by decide +kernel
example : rFlatten us (rFresh double) = flat [("s", ""), ("s_x", ""), ("s_y", "")] := by decide +kernel

/-! test_sample_compound -/

/-- a new DateYYYYMMDD after `set` [no code] -/
def dated (v : PyVal) : List ScalarState × Except PyErr Bool := dateSet true ymdTypes [.fresh, .fresh, .fresh] v

example : dateView true [.fresh, .fresh, .fresh] = .ok ([], .none) := by decide +kernel
example : dateView true (dated (.date 2000 10 1)).1 = .ok ("2000-10-01".toList, .date 2000 10 1) ∧
  (dated (.date 2000 10 1)).1.map ScalarState.value = [.int 2000, .int 10, .int 1] ∧
  (dated (.date 2000 10 1)).1.map ScalarState.u = texts ["2000", "10", "01"] := by decide +kernel
example : dateView true ((dated (.date 2000 10 1)).1.take 2 ++ [(scalarSet (integerType true 2) .fresh (.int 5)).1]) =
  .ok ("2000-10-05".toList, .date 2000 10 5) := by decide +kernel
example : dateView true (dated .none).1 = .ok ([], .none) ∧ (dated .none).1.map ScalarState.value = [.none, .none, .none] := by decide +kernel
example : dateView true (dated (s "snaggle")).1 = .ok ([], .none) ∧ (dated (s "snaggle")).1.map ScalarState.value = [.none, .none, .none] := by decide +kernel

/-! test_joined_string -/

/-- value and values of the members of `JoinedString(value)` [no code] -/
def joined (c : JoinedCfg) (v : PyVal) : PStr × List PyVal := (joinedText c (joinedSet c [] v).1, (joinedSet c [] v).1.map ScalarState.value)

example : joined ⟨[','], .none, true, stringType true⟩ (s "abc") = ("abc".toList, [s "abc"]) := by decide +kernel
example : joined ⟨[','], .none, true, stringType true⟩ (s "abc,def") = ("abc,def".toList, [s "abc", s "def"]) := by decide +kernel
example : joined ⟨[','], .none, true, stringType true⟩ (strs ["abc", "def"]) = ("abc,def".toList, [s "abc", s "def"]) := by decide +kernel
example : joined ⟨[','], .none, true, stringType true⟩ (s " abc,,ghi ") = ("abc,ghi".toList, [s "abc", s "ghi"]) := by decide +kernel
example : joined ⟨[','], .none, false, stringType true⟩ (s "abc,,ghi") = ("abc,,ghi".toList, [s "abc", s "", s "ghi"]) := by decide +kernel
example : joined ⟨[','], .none, true, stringType true⟩ (s " abc ,, ghi ") = ("abc,ghi".toList, [s "abc", s "ghi"]) := by decide +kernel
example : joined ⟨[','], .none, true, stringType false⟩ (s " abc ,, ghi ") = (" abc , ghi ".toList, [s " abc ", s " ghi "]) := by decide +kernel

/-! test_joined_string_flat, test_joined_non_string -/

/-- `JoinedString.named('js').of(Integer)` [no code] -/
def js : JoinedCfg := ⟨[','], .none, true, integerType true 0⟩

/-- one round of the test [no code] -/
def joinedRound (v : PyVal) (text : String) (members : List PyVal) : Prop :=
  joined js v = (text.toList, members) ∧ joinedFlatten js "js".toList (joinedSet js [] v).1 = flat [("js", text)] ∧
  (rFromFlat us (.joined (hd "js") js .none) (flat [("js", text)])).map (rFlatten us) = .ok (flat [("js", text)]) ∧
  (rFromFlat us (.joined (hd "js") js .none) (flat [("js", text)])).map (fun e => e.members.map ScalarState.value) = .ok members

instance (v : PyVal) (text : String) (ms : List PyVal) : Decidable (joinedRound v text ms) := by unfold joinedRound; infer_instance

example : joinedRound (ints [1]) "1" [.int 1] ∧ joinedRound (s "1") "1" [.int 1] ∧ joinedRound (ints [1, 2, 3]) "1,2,3" [.int 1, .int 2, .int 3] ∧
  joinedRound (s "1,2,3") "1,2,3" [.int 1, .int 2, .int 3] ∧ joined js (s "1, 2, 3") = ("1,2,3".toList, [.int 1, .int 2, .int 3]) := by decide +kernel

/-! test_refs.py -/

/-- `main` is cell 0; `aux` refers to it [no code] -/
def refDict (main : ScalarState) : RefWorld := ⟨fun _ => integerType true 0, fun _ => main, some 0, .none, .none⟩

/-- value of `aux` and of `main` afterwards [no code] -/
def auxMain (w : RefWorld) : Except PyErr (PyVal × PStr) × PyVal := ((refRead w).2, (w.cells 0).value)

example : (refRead (refDict (setTo (integerType true 0) (.int 5)))).2 = .ok (.int 5, "5".toList) := by decide +kernel
example : auxMain (refSet .ignore (refDict .fresh) (.int 6)).1 = (.ok (.none, []), .none) := by decide +kernel
example : auxMain (refSet .yes (refDict .fresh) (.int 6)).1 = (.ok (.int 6, "6".toList), .int 6) := by decide +kernel
example : (refSet .no (refDict .fresh) (.int 6)).2 = .error .type := by decide +kernel
example : auxMain (refSet .yes (refSet .yes (refDict .fresh) (.int 1)).1 (.int 1)).1 = (.ok (.int 1, "1".toList), .int 1) := by decide +kernel

end Flatland.Conf
