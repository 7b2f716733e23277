import Verif.Conformance.Scalars
import Verif.Model.Edits
import Verif.Model.MappingReads
/-! /repo/tests/schema/test_dicts.py -/
namespace Flatland.Conf
open Flatland

attribute [local instance] Runtime.ascii

/-! test_dict_immutable_keys, test_dict_reads, test_dict_update: Mapping operations on Integers -/

/-- Integer as a field [no code] -/
def intField (n : String) (optional : Bool := false) (d : PyVal := .none) : Field String PyVal ScalarState where
  name := n
  optional := optional
  cls := scalarMember (integerType true 0) fun st => .str st.u
  isInstance _ := true
  optionalOf _ := optional
  isEmpty st := stringIsEmpty st
  setDefault st := ((scalarSet (integerType true 0) st d).1, .ok ())
  fromDefaults := .ok (setTo (integerType true 0) d)

/-- `Dict.of(Integer.named('x'), Integer.named('y'))`, or SparseDict [no code] -/
def xy (m : MapMode) : MapClass String PyVal ScalarState := ⟨[intField "x", intField "y"], m, .subset, .none⟩

/-- `dict((k, v.value) …)` [no code] -/
def valueDict (d : PyDict String ScalarState) : List (String × PyVal) := d.map fun x => (x.1, x.2.value)

/-- only what was returned or raised [no code] -/
def outcome {S A : Type} (r : S × Except PyErr A) : Except PyErr Unit := r.2.map fun _ => ()

/-- the value given [no code] -/
def iv (i : Int) : Arg PyVal ScalarState := .val (.int i)

/-- pairs [no code] -/
def ps (l : List (String × Int)) : List (String × Arg PyVal ScalarState) := l.map fun x => (x.1, iv x.2)

/-- a pairs argument [no code] -/
def prs (l : List (String × Int)) : Pairs String PyVal ScalarState := .seq (ps l) .none

example : outcome (mapSetItem (xy .full) (mapNew (xy .full)) "z" (iv 123)) = .error .type ∧ outcome (mapDelItem (xy .full) (mapNew (xy .full)) "x") = .error .type ∧
  outcome (mapDelItem (xy .full) (mapNew (xy .full)) "z") = .error .key ∧ outcome (mapSetdefault (xy .full) (mapNew (xy .full)) "x" (iv 123)) = .error .type ∧
  outcome (mapSetdefault (xy .full) (mapNew (xy .full)) "z" (iv 123)) = .error .type ∧ outcome (mapPop (xy .full) (mapNew (xy .full)) "x") = .error .type ∧
  outcome (mapPop (xy .full) (mapNew (xy .full)) "z") = .error .key ∧ outcome (mapPopitem (xy .full) (mapNew (xy .full))) = .error .type ∧
  outcome (mapClear (xy .full) (mapNew (xy .full))) = .error .type := by decide +kernel
example : (mapGetChild (mapNew (xy .full)) "x" (some ())).map ScalarState.value = .ok .none ∧
  (mapGetChild (mapNew (xy .full)) "z" (some ())).map ScalarState.value = .error .key := by decide +kernel

/-- the updates of test_dict_update, one after the other [no code] -/
def updates : List (List (String × Int) × List (String × Int)) :=
  [([], [("x", 20), ("y", 30)]), ([("y", 40)], []), ([], []), ([("x", 100), ("y", 100)], []), ([("x", 1)], [("y", 2)]),
   ([("x", 10), ("y", 10)], [("x", 20), ("y", 20)])]

/-- after so many of them [no code] -/
def updated (n : Nat) : List (String × PyVal) :=
  valueDict ((updates.take n).foldl (fun d u => (mapUpdate (xy .full) d (prs u.1) (ps u.2)).1) (mapNew (xy .full)))

example : updated 1 = [("x", .int 20), ("y", .int 30)] ∧ updated 2 = [("x", .int 20), ("y", .int 40)] ∧ updated 3 = updated 2 ∧
  updated 4 = [("x", .int 100), ("y", .int 100)] ∧ updated 5 = [("x", .int 1), ("y", .int 2)] ∧ updated 6 = [("x", .int 20), ("y", .int 20)] := by decide +kernel
example : outcome (mapUpdate (xy .full) (mapNew (xy .full)) (prs []) (ps [("z", 1)])) = .error .type ∧
  outcome (mapUpdate (xy .full) (mapNew (xy .full)) (prs []) (ps [("x", 1), ("z", 1)])) = .error .type ∧
  outcome (mapUpdate (xy .full) (mapNew (xy .full)) (prs [("z", 1)]) []) = .error .type := by decide +kernel

/-! DictSetTest, as TestEmptyDictSet, TestDefaultDictSet, TestEmptySparseDictRequiredSet -/

/-- the three classes [no code] -/
def setTests : List Schema :=
  [dict "s" [int "x", int "y"], dict "s" [int "x" (some (.int 10)), int "y" (some (.int 20))], .dict (hd "s") .sparseRequired .subset [int "x", int "y"]]

/-- value with these two [no code] -/
def vxy (x y : PyVal) : PyVal := dct [("x", x), ("y", y)]

example : ∀ c ∈ setTests, elemValue (fresh c) = vxy .none .none ∧ setResult (setVal c (dct [])) = .ok (vxy .none .none, true) ∧
  setResult (setVal c (.list [])) = .ok (vxy .none .none, true) ∧ valueOf (fromFlat us c []) = .ok (vxy .none .none) := by decide +kernel
example : ∀ c ∈ setTests, setResult (setVal c (dct [("x", .int 123)])) = .ok (vxy (.int 123) .none, true) ∧
  setResult (setVal c (.list [.list [s "x", .int 123]])) = .ok (vxy (.int 123) .none, true) ∧
  valueOf (fromFlat us c (flat [("s_x", "123")])) = .ok (vxy (.int 123) .none) := by decide +kernel
example : ∀ c ∈ setTests, setResult (setVal c (vxy (.int 101) (.int 102))) = .ok (vxy (.int 101) (.int 102), true) ∧
  setResult (setVal c (.list [.list [s "x", .int 101], .list [s "y", .int 102]])) = .ok (vxy (.int 101) (.int 102), true) ∧
  valueOf (fromFlat us c (flat [("s_x", "101"), ("s_y", "102")])) = .ok (vxy (.int 101) (.int 102)) ∧
  valueOf (fromFlat us c (flat [("s", "xxx")])) = .ok (vxy .none .none) := by decide +kernel
example : ∀ c ∈ setTests, setResult (setVal c (dct [("x", .int 1), ("y", .int 2), ("z", .int 3)])) = .error .key ∧
  setResult (setVal c (dct [("z", .int 3)])) = .error .key ∧
  valueOf (fromFlat us c (flat [("s_x", "123"), ("s_z", "nope")])) = .ok (vxy (.int 123) .none) ∧
  valueOf (fromFlat us c (flat [("miss", "10")])) = .ok (vxy .none .none) := by decide +kernel
example : ∀ c ∈ setTests, (setVal c (vxy (.int 1) (.int 2))).map Prod.snd = .ok true ∧
  (setVal c (vxy (s "i am the new") (s "number two"))).map Prod.snd = .ok false := by decide +kernel
example : valueOf (fromDefaults (dict "s" [int "x", int "y"] (d := some (vxy (.int 11) (.int 12))))) = .ok (vxy (.int 11) (.int 12)) ∧
  valueOf (fromDefaults (.dict (hd "s" (some (vxy (.int 11) (.int 12)))) .sparseRequired .subset [int "x", int "y"])) = .ok (vxy (.int 11) (.int 12)) ∧
  valueOf (fromDefaults (dict "s" [int "x", int "y"])) = .ok (vxy .none .none) ∧
  valueOf (fromDefaults (dict "s" [int "x" (some (.int 10)), int "y" (some (.int 20))])) = .ok (vxy (.int 10) (.int 20)) ∧
  valueOf (fromDefaults (.dict (hd "s") .sparseRequired .subset [int "x", int "y"])) = .ok (vxy .none .none) := by decide +kernel

/-! test_dict_strict -/
example : setResult (setVal (dict "" [int "x", int "y"] .strict) (vxy (.int 123) (.int 456))) = .ok (vxy (.int 123) (.int 456), true) ∧
  setResult (setVal (dict "" [int "x", int "y"] .strict) (dct [("x", .int 123)])) = .error .type ∧
  setResult (setVal (dict "" [int "x", int "y"] .strict) (dct [("x", .int 123), ("y", .int 456), ("z", .int 7)])) = .error .key := by decide +kernel

/-! test_dict_as_unicode, test_nested_dict_as_unicode, test_nested_unicode_dict_as_unicode -/
example : (setVal (dict "" [int "x", int "y"]) (vxy (.int 1) (.int 2))).map (fun r => elemU urepr r.1) = .ok "{u'x': u'1', u'y': u'2'}".toList := by decide +kernel
example : valueOf (fromDefaults (dict "" [dict "d" [int "x" (some (.int 10))]])) = .ok (dct [("d", dct [("x", .int 10)])]) ∧
  (fromDefaults (dict "" [dict "d" [int "x" (some (.int 10))]])).map (elemU urepr) = .ok "{u'd': {u'x': u'10'}}".toList ∧
  (fromDefaults (dict "" [dict "d" [str "x" (some (s "⌈⌉"))]])).map (elemU urepr) = .ok "{u'd': {u'x': u'⌈⌉'}}".toList := by decide +kernel

/-! test_update_object, test_slice -/

/-- `el.update_object(obj, …)`: the attributes x, y and z afterwards [no code] -/
def updateObj (el : List (String × PyVal)) (obj : List (String × PyVal)) (sel : Selection String) : Except PyErr (List (Option PyVal)) :=
  (mapUpdateObject id el (fun k => dictGet obj k) sel).map fun o => [o "x", o "y", o "z"]

example : updateObj [("x", s "X"), ("y", s "Y")] [] {} = .ok [some (s "X"), some (s "Y"), .none] ∧
  updateObj [("x", s "X"), ("y", .none)] [] {} = .ok [some (s "X"), some .none, .none] ∧
  updateObj [("x", s "X"), ("y", .none)] [("y", s "Y")] {} = .ok [some (s "X"), some .none, .none] ∧
  updateObj [("x", s "X"), ("y", .none)] [("y", s "Y")] { omitted := ["y"] } = .ok [some (s "X"), some (s "Y"), .none] ∧
  updateObj [("x", s "X"), ("y", .none)] [("y", s "Y")] { included := ["z"] } = .ok [.none, some (s "Y"), .none] ∧
  updateObj [("x", s "X"), ("y", .none)] [] { rename := [("x", "z")] } = .ok [.none, some .none, some (s "X")] := by decide +kernel

/-! test_sparsedict_key_mutability, test_sparsedict_operations -/

/-- the states [no code] -/
def sx (m : MapMode) : PyDict String ScalarState := (mapSetItem (xy m) (mapNew (xy m)) "x" (iv 123)).1

example : mapNew (xy .sparse) = [] ∧ valueDict (sx .sparse) = [("x", .int 123)] ∧ outcome (mapSetItem (xy .sparse) [] "z" (iv 123)) = .error .type ∧
  (mapDelItem (xy .sparse) (sx .sparse) "x").1 = [] ∧ outcome (mapDelItem (xy .sparse) [] "z") = .error .type ∧ outcome (mapDelItem (xy .sparse) [] "x") = .error .key ∧
  outcome (mapSetdefault (xy .sparse) [] "x" (iv 456)) = .ok () ∧ outcome (mapSetdefault (xy .sparse) [] "z" (iv 456)) = .error .type ∧
  (mapPop (xy .sparse) (sx .sparse) "x").2.map ScalarState.value = .ok (.int 123) ∧ outcome (mapPop (xy .sparse) [] "z") = .error .key ∧
  outcome (mapPopitem (xy .sparse) (sx .sparse)) = .error .notImplemented ∧ (mapClear (xy .sparse) (sx .sparse)).1 = [] := by decide +kernel
example : valueDict (mapSetdefault (xy .sparse) [] "x" (iv 123)).1 = [("x", .int 123)] ∧
  (setdefaultResult (xy .sparse) (sx .sparse) "x" (iv 456)).map (fun r => r.map ScalarState.value) = .ok (some (.int 123)) := by decide +kernel

/-! test_sparsedict_required_operations, test_sparsedict_required_key_mutability -/

/-- `SparseDict.of(Integer.named('x').using(optional=True), Integer.named('y')).using(minimum_fields='required')` [no code] -/
def reqd : MapClass String PyVal ScalarState := ⟨[intField "x" true, intField "y"], .required, .subset, .none⟩

/-- both set [no code] -/
def bothSet : PyDict String ScalarState := (mapSetItem reqd (mapSetItem reqd (mapNew reqd) "x" (iv 123)).1 "y" (iv 456)).1

example : dictKeys (mapNew reqd) = ["y"] ∧ valueDict bothSet = [("y", .int 456), ("x", .int 123)] ∧ outcome (mapSetItem reqd bothSet "z" (iv 123)) = .error .type ∧
  dictKeys (mapDelItem reqd bothSet "x").1 = ["y"] ∧ outcome (mapDelItem reqd bothSet "y") = .error .type ∧ outcome (mapDelItem reqd bothSet "z") = .error .type ∧
  outcome (mapDelItem reqd (mapNew reqd) "x") = .error .key ∧
  outcome (mapSetdefault reqd (mapNew reqd) "x" (iv 456)) = .ok () ∧ outcome (mapSetdefault reqd (mapNew reqd) "y" (iv 789)) = .ok () ∧
  outcome (mapSetdefault reqd (mapNew reqd) "z" (iv 456)) = .error .type ∧ outcome (mapPop reqd bothSet "x") = .ok () ∧
  outcome (mapPop reqd bothSet "y") = .error .type ∧ outcome (mapPop reqd bothSet "z") = .error .key ∧
  outcome (mapPopitem reqd bothSet) = .error .notImplemented ∧ dictKeys (mapClear reqd bothSet).1 = ["y"] := by decide +kernel
example : valueDict (mapSetdefault reqd (mapNew reqd) "y" (iv 123)).1 = [("y", .int 123)] ∧
  valueDict (mapSetdefault reqd (mapSetdefault reqd (mapNew reqd) "y" (iv 123)).1 "y" (iv 456)).1 = [("y", .int 123)] := by decide +kernel

/-! test_sparsedict_set_default, test_sparsedict_required_set_default -/
example : valueOf (fromDefaults (sparse "" [int "x" (some (.int 123)), int "y"])) = .ok (dct []) ∧
  valueOf (fromDefaults (.dict (hd "") .sparseRequired .subset
    [int "x" (some (.int 123)), int "y" (some (.int 456)) true, int "z" (optional := true)])) = .ok (dct [("x", .int 123)]) := by decide +kernel

/-! test_sparsedict_from_flat, test_sparsedict_required_from_flat, test_sparsedict_flattening -/
example : valueOf (fromFlat us (sparse "" [int "x", int "y"]) []) = .ok (dct []) ∧
  valueOf (fromFlat us (sparse "" [int "x", int "y"]) (flat [("x", "123")])) = .ok (dct [("x", .int 123)]) ∧
  valueOf (fromFlat us (sparse "" [int "x", int "y"]) (flat [("x", "123"), ("z", "456")])) = .ok (dct [("x", .int 123)]) := by decide +kernel

/-- the required one [no code] -/
def reqFlat : Schema := .dict (hd "") .sparseRequired .subset [int "x", int "y" (optional := true)]

example : valueOf (fromFlat us reqFlat []) = .ok (dct [("x", .none)]) ∧ valueOf (fromFlat us reqFlat (flat [("x", "123")])) = .ok (dct [("x", .int 123)]) ∧
  valueOf (fromFlat us reqFlat (flat [("y", "456"), ("z", "789")])) = .ok (dct [("x", .none), ("y", .int 456)]) := by decide +kernel
example : (setVal (sparse "top" [int "x", int "y"]) (vxy (.int 123) (.int 456))).map (fun r => flatten us r.1) =
  .ok (flat [("top_x", "123"), ("top_y", "456")]) := by decide +kernel

end Flatland.Conf
