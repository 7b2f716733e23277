import Verif.Conformance.Lists
import Verif.Conformance.Validation
import Verif.Model.Properties
import Verif.Model.Forms
import Verif.Model.CardElement
import Verif.Model.Mappings
/-! /repo/tests/schema/test_base.py, test_containers.py, test_properties.py, test_forms.py, the MultiValues of test_arrays.py, and
/repo/tests/test_richtypes.py, test_forms.py, test_schema.py, test_utils.py, validation/test_signals.py -/
namespace Flatland.Conf
open Flatland
open Flatland.Spec (elemAt Pos)

attribute [local instance] Runtime.ascii

/-! ## test_base.py -/

/-! test_dsl_including_validators, test_containers.py: test_dsl_including_descent_validators -/
example : includingValidators [1, 2, 3] [4, 5, 6] (-1) = [1, 2, 3, 4, 5, 6] := by decide
example : includingValidators [1, 2, 3] [4, 5, 6] 0 = [4, 5, 6, 1, 2, 3] := by decide
example : includingValidators [1, 2, 3] [4, 5, 6] 1 = [1, 4, 5, 6, 2, 3] := by decide
example : includingValidators [1, 2, 3] [4, 5, 6] (-2) = [1, 2, 4, 5, 6, 3] := by decide
example : includingValidators [] [1] (-1) = [1] := by decide

/-! test_message_buckets -/
example : addMessage [] "error" = ["error"] := by decide
example : addMessage ["error"] "error" = ["error"] := by decide
example : addMessage ["error"] "error2" = ["error", "error2"] := by decide

/-- the names of the validators that were run [no code] -/
abbrev Canary := List String

/-- a validator that notes its name and returns a fixed result [no code] -/
def canary {I : Type} (name : String) (r : VResult) : Validator I Canary := fun st => ({ st with data := st.data ++ [name] }, .ok r)

/-- a lone element with `validates_down = 'validators'` [no code] -/
def lone (vs : List VResult) : VEnv Unit Canary :=
  .ofClasses (fun _ _ => []) fun _ => ⟨false, some (vs.map (canary "v")), .none, false, fun _ => true⟩

/-- nothing validated yet [no code] -/
def vstart {I : Type} : VState I Canary := ⟨fun _ => .unevaluated, []⟩

/-- `el.validate()`, `el.valid` and `el.all_valid` [no code] -/
def validationOutcome (vs : List VResult) : Option (Bool × Flag × Bool) :=
  match validateTree (lone vs) 9 () vstart with
  | some ⟨st, _, _, .ok b⟩ => (getAllValid (fun _ => []) 9 () st).map fun a => (b, st.flag (), a)
  | _ => .none

/-! test_validation -/
example : ([[.truthy], [.truthy, .truthy], [.skip], [.skip, .falseInt], [.truthy, .skip, .falseInt], [.skipAll], [.skipAll, .falseInt]] : List (List VResult)).all
    (validationOutcome · = some (true, .yes, true)) := by decide
example : ([[.none], [.truthy, .none], [.falseInt], [.truthy, .falseInt], [.truthy, .falseInt, .truthy], [.skipAllFalse], [.truthy, .skipAllFalse, .truthy]] :
    List (List VResult)).all (validationOutcome · = some (false, .no, false)) := by decide

/-! test_validator_return -/
example : (validateTree (lone [.falseObj]) 9 () vstart).map VRun.result = some (.error .type) := by decide

/-! ## test_containers.py -/

/-- a Dict with one Integer that is empty; the validators by name and result [no code] -/
def pairEnv (descent own member : List (String × VResult)) : VEnv Bool Canary :=
  .ofClasses (fun _ i => if i then [] else [true]) fun i =>
    if i then ⟨false, some (member.map fun v => canary v.1 v.2), .none, false, fun _ => true⟩
    else ⟨true, some (descent.map fun v => canary v.1 v.2), some (own.map fun v => canary v.1 v.2), false, fun _ => false⟩

/-- `el.validate()`, the canary, `el.valid`, `el.all_valid` and the child's `valid` [no code] -/
def pairRun (descent own member : List (String × VResult)) : Option (Bool × Canary × Flag × Option Bool × Flag) :=
  match validateTree (pairEnv descent own member) 9 false vstart with
  | some ⟨st, _, _, .ok b⟩ => some (b, st.data, st.flag false, getAllValid (fun i => if i then [] else [true]) 9 false st, st.flag true)
  | _ => .none

example : (pairRun [] [] []).map Prod.fst = some false := by decide
example : (pairRun [("a", .skipAll)] [] [("boom", .falseInt)]).map (fun r => (r.1, r.2.1)) = some (true, ["a"]) := by decide
example : pairRun [] [("1", .truthy)] [] = some (false, ["1"], .yes, some false, .no) := by decide
example : pairRun [("1", .truthy)] [] [] = some (false, ["1"], .yes, some false, .no) := by decide
example : pairRun [("1", .truthy)] [("2", .truthy)] [] = some (false, ["1", "2"], .yes, some false, .no) := by decide
example : pairRun [("1", .falseInt)] [("2", .truthy)] [] = some (false, ["1", "2"], .no, some false, .no) := by decide
example : pairRun [("1", .truthy)] [("3", .truthy)] [("2", .truthy)] = some (true, ["1", "2", "3"], .yes, some true, .yes) := by decide
example : pairRun [("1", .skipAll)] [("3", .truthy)] [("2", .falseInt)] = some (true, ["1", "3"], .yes, some true, .unevaluated) := by decide
example : pairRun [("1", .skipAllFalse)] [("3", .truthy)] [("2", .truthy)] = some (false, ["1", "3"], .no, some false, .unevaluated) := by decide
example : pairRun [("1", .truthy)] [("3", .skipAll)] [("2", .truthy)] = some (true, ["1", "2", "3"], .yes, some true, .yes) := by decide

/-! test_mixed_all_children -/

/-- the schema of the test [no code] -/
def mixed : Schema := dict "R" [str "A1", str "A2", dict "A3" [dict "A3B1" [str "A3B1C1", str "A3B1C2"], dict "A3B2" [str "A3B2C1"],
  list "A3B3" (list "A3B3Cx" (str "A3B3x"))]]

/-- the data of the test [no code] -/
def mixedData : PyVal := dct [("A1", s "1"), ("A2", s "2"), ("A3", dct [("A3B1", dct [("A3B1C1", s "1"), ("A3B1C2", s "2")]), ("A3B2", dct [("A3B2C1", s "1")]),
  ("A3B3", .list [strs ["A3B3C0D0", "A3B3C0D1"], strs ["A3B3C1D0", "A3B3C1D1"], strs ["A3B3C2D0", "A3B3C2D1"]])])]

/-- the names of `top.all_children` [no code] -/
def mixedNames : Option (List (Option PStr)) :=
  let e := made mixed mixedData
  (allChildrenIds (fun n => nodeChildren e n) 99 ⟨[], false⟩).map fun l => l.map (nodeName e)

example : mixedNames = some (["A1", "A2", "A3", "A3B1", "A3B2", "A3B3", "A3B1C1", "A3B1C2", "A3B2C1", "A3B3Cx", "A3B3Cx", "A3B3Cx",
    "A3B3x", "A3B3x", "A3B3x", "A3B3x", "A3B3x", "A3B3x"].map fun n => some n.toList) := by decide +kernel

/-! test_corrupt_all_children: elements x, y, z, the last one twice -/
example : allChildrenIds (fun i => if i = "" then ["x", "y", "z", "z"] else []) 9 "" = some ["x", "y", "z"] := by decide

/-! test_naming_*: an element made from a value, and where a path leads -/

/-- `root.el(path)` from the node at a position [no code] -/
def elFrom (sc : Schema) (v : PyVal) (pos : Pos) (path : String) : Except PyErr Pos :=
  (elPath (made sc v) ⟨pos, false⟩ path.toList ['.']).map Node.pos

/-- `fq_name()` of the node at a position [no code] -/
def fqAt (sc : Schema) (v : PyVal) (pos : Pos) : Except PyErr PStr :=
  fqName (made sc v) ['.'] ⟨pos, false⟩

/-! test_naming_bogus, test_naming_shallow -/
example : elFrom (str "s") .none [] "." = .ok [] := by decide +kernel
example : elFrom (str "s") .none [] "" = .error .key := by decide +kernel
example : fqAt (str "s") .none [] = .ok ".".toList := by decide +kernel
example : fqAt (str "") .none [] = .ok ".".toList := by decide +kernel
/-! test_naming_dict -/
example : ["d", ""].all fun n => let d := dict n [str "s"]
    decide (fqAt d (dct []) [] = .ok ".".toList) && decide (fqAt d (dct []) [0] = .ok ".s".toList) && decide (elFrom d (dct []) [] "." = .ok []) &&
    decide (elFrom d (dct []) [] ".s" = .ok [0]) && decide (elFrom d (dct []) [] "s" = .ok [0]) && decide (elFrom d (dct []) [0] ".s" = .ok [0]) &&
    decide (elFrom d (dct []) [0] "s" = .error .key) && decide (elFrom d (dct []) [0] "." = .ok []) := by decide +kernel
/-! test_naming_dict_dict -/
example : ["d", ""].all fun n => let d := dict n [dict "d2" [str "s"]]
    decide (fqAt d (dct []) [] = .ok ".".toList) && decide (fqAt d (dct []) [0, 0] = .ok ".d2.s".toList) && decide (elFrom d (dct []) [] ".d2.s" = .ok [0, 0]) &&
    decide (elFrom d (dct []) [] "d2.s" = .ok [0, 0]) && decide (elFrom d (dct []) [0, 0] ".d2.s" = .ok [0, 0]) &&
    decide (elFrom d (dct []) [0, 0] "d2.s" = .error .key) && decide (elFrom d (dct []) [0, 0] "." = .ok []) := by decide +kernel
/-! test_naming_list -/
example : ["l", ""].all fun n => let d := list n (str "s")
    decide (fqAt d (strs ["x"]) [] = .ok ".".toList) && decide (fqAt d (strs ["x"]) [0] = .ok ".0".toList) && decide (elFrom d (strs ["x"]) [] ".0" = .ok [0]) &&
    decide (elFrom d (strs ["x"]) [] "0" = .ok [0]) && decide (elFrom d (strs ["x"]) [0] ".0" = .ok [0]) &&
    decide (elFrom d (strs ["x"]) [0] "0" = .error .key) && decide (elFrom d (strs ["x"]) [0] "s" = .error .key) &&
    decide (elFrom d (strs ["x"]) [0] "." = .ok []) := by decide +kernel
/-! test_naming_list_list -/
example : ["l", ""].all fun n => let d := list n (list "l2" (str "s"))
    decide (fqAt d (strs ["x"]) [0, 0] = .ok ".0.0".toList) && decide (elFrom d (strs ["x"]) [] ".0.0" = .ok [0, 0]) &&
    decide (elFrom d (strs ["x"]) [] "0.0" = .ok [0, 0]) && decide (elFrom d (strs ["x"]) [0, 0] ".0.0" = .ok [0, 0]) &&
    decide (elFrom d (strs ["x"]) [0, 0] "0" = .error .key) && decide (elFrom d (strs ["x"]) [0, 0] "s" = .error .key) &&
    decide (elFrom d (strs ["x"]) [0, 0] "." = .ok []) := by decide +kernel

/-! ## validation/test_signals.py: test_validator_validated -/

/-- the signals sent for an element whose validators give these results [no code] -/
def signalsOf (isEmpty : Bool) (vs : List VResult) : List Signal := (validateElement (I := Unit) false isEmpty (vs.map (canary "v")) vstart).2.1

example : signalsOf true [.falseInt, .truthy, .truthy] = [.validator 0 .falseInt] := by decide
example : signalsOf false [.truthy, .truthy, .truthy] = [.validator 0 .truthy, .validator 1 .truthy, .validator 2 .truthy] := by decide
example : signalsOf false [.truthy, .truthy, .falseInt] = [.validator 0 .truthy, .validator 1 .truthy, .validator 2 .falseInt] := by decide
example : signalsOf true [] = [.notEmpty false] := by decide
example : signalsOf false [] = [.notEmpty true] := by decide

/-! ## test_properties.py: classes Base 0, Middle 1, Lowest 2 (each a subclass of the one before), Override 3 (of Middle, with its own
`Properties`); instances: b 0 of Base, s 1 of Middle, t 2 of Middle -/

/-- the classes [no code] -/
def propWorld (initial : List (String × PyVal)) : PropWorld Nat Nat Nat String PyVal where
  mro c := match c with | 0 => [0] | 1 => [1, 0] | 2 => [2, 1, 0] | _ => [3, 1, 0]
  member c := match c with | 0 => some 0 | 3 => some 1 | _ => .none
  initial d := if d = 0 then initial else [("def", .int 456)]
  classOf i := match i with | 0 => 0 | _ => 1

/-- the results of a program, and then `X.properties == {...}` for the targets given [no code] -/
def propTest (initial : List (String × PyVal)) (steps : List (PropStep Nat Nat String PyVal)) (want : List (PropRes PyVal))
    (eqs : List (PropTarget Nat Nat × List (String × PyVal))) : Bool :=
  let w := propWorld initial
  let r := propRun w (propStart w) steps
  decide (r.2 = want) && eqs.all fun q => propEqDict (fun a b => decide (a = b)) w r.1 q.1 q.2 && (propBool w r.1 q.1 == !q.2.isEmpty)

/-! test_empty -/
example : propTest [] [] [] [(.cls 0, []), (.inst 0, []), (.cls 1, []), (.inst 1, [])] := by decide +kernel
example : propTest [] [.inst 1 (.set "abc" (.int 123)), .cls 1 (.set "def" (.int 456))] [.done, .done]
    [(.cls 0, []), (.inst 0, []), (.cls 1, [("def", .int 456)]), (.inst 2, [("def", .int 456)])] := by decide +kernel
/-! test_dictlike -/
example : propTest [("def", .int 456), ("abc", .int 123)] [.cls 0 (.get "abc"), .cls 0 (.get "blah")] [.value (some (.int 123)), .keyError]
    [(.cls 0, [("abc", .int 123), ("def", .int 456)])] := by decide +kernel
example : propTest [("def", .int 456), ("abc", .int 123)] [.cls 0 .clear] [.done] [(.cls 0, [])] := by decide +kernel
/-! test_instance_population -/
example : propTest [] [.inst 0 (.update [("a", .int 1), ("b", .int 2), ("c", .int 3)]), .inst 1 (.set "d" (.int 4))] [.done, .done]
    [(.inst 0, [("a", .int 1), ("b", .int 2), ("c", .int 3)]), (.cls 0, []), (.cls 1, []), (.inst 1, [("d", .int 4)]), (.inst 2, [])] := by decide +kernel

/-- the steps of test_instance_overlay, in stages [no code] -/
def overlay1 : List (PropStep Nat Nat String PyVal) := [.cls 0 (.set "a" (.int 1)), .inst 0 (.set "b" (.int 2))]
/-- the next stage [no code] -/
def overlay2 := overlay1 ++ [.inst 0 (.del "a")]
/-- the next stage [no code] -/
def overlay3 := overlay2 ++ [.inst 0 (.update [("b", s "x"), ("c", .int 3), ("d", .int 4)])]
/-- the next stage [no code] -/
def overlay4 := overlay3 ++ [.inst 0 (.del "b"), .inst 0 (.get "b"), .inst 0 (.setdefault "e" (.int 5)), .inst 0 (.setdefault "e" (s "blah"))]
/-- the next stage [no code] -/
def overlay5 := overlay4 ++ [.inst 0 (.pop "e" (some (s "blah"))), .inst 0 (.pop "e" (some (s "blah"))), .inst 0 (.pop "e" .none), .inst 0 .clear]
/-- the next stage [no code] -/
def overlay6 := overlay5 ++ [.cls 0 (.set "b" (.int 2))]
/-- the last stage [no code] -/
def overlay7 := overlay6 ++ [.cls 0 (.update [("c", .int 3), ("d", .int 4), ("e", .int 5)]), .cls 0 (.del "e")]

/-- the results of the fourth stage [no code] -/
def overlayRes4 : List (PropRes PyVal) := [.done, .done, .done, .done, .done, .keyError, .value (some (.int 5)), .value (some (.int 5))]
/-- the results of the fifth stage [no code] -/
def overlayRes5 : List (PropRes PyVal) := overlayRes4 ++ [.value (some (.int 5)), .value (some (s "blah")), .keyError, .done]

example : propTest [] overlay1 [.done, .done] [(.cls 0, [("a", .int 1)]), (.inst 0, [("a", .int 1), ("b", .int 2)])] := by decide +kernel
example : propTest [] overlay2 [.done, .done, .done] [(.cls 0, [("a", .int 1)]), (.inst 0, [("b", .int 2)])] := by decide +kernel
example : propTest [] overlay3 [.done, .done, .done, .done] [(.inst 0, [("b", s "x"), ("c", .int 3), ("d", .int 4)])] := by decide +kernel
example : propTest [] overlay4 overlayRes4 [(.inst 0, [("c", .int 3), ("d", .int 4), ("e", .int 5)])] := by decide +kernel
example : propTest [] overlay5 overlayRes5 [(.inst 0, []), (.cls 0, [("a", .int 1)])] := by decide +kernel
example : propTest [] overlay6 (overlayRes5 ++ [.done]) [(.inst 0, [("b", .int 2)]), (.cls 0, [("a", .int 1), ("b", .int 2)])] := by decide +kernel
example : propTest [] overlay7 (overlayRes5 ++ [.done, .done, .done])
    [(.inst 0, [("b", .int 2), ("c", .int 3), ("d", .int 4)]), (.cls 0, [("a", .int 1), ("b", .int 2), ("c", .int 3), ("d", .int 4)])] := by decide +kernel
/-! test_instance_member_assignment -/
example : propTest [("abc", .int 123)] [] [] [(.inst 0, [("abc", .int 123)])] := by decide +kernel
example : propTest [("abc", .int 123)] [.assign 0 [("abc", s "detached")], .cls 0 (.set "def" (.int 456))] [.done, .done]
    [(.inst 0, [("abc", s "detached")])] := by decide +kernel

/-- test_subclass_overlay, in stages [no code] -/
def sub1 : List (PropStep Nat Nat String PyVal) := [.cls 2 (.set "def" (.int 456))]
/-- the next stage [no code] -/
def sub2 := sub1 ++ [.cls 0 (.set "abc" (.int 123))]
/-- the next stage [no code] -/
def sub3 := sub2 ++ [.cls 1 (.del "abc"), .cls 1 (.get "abc"), .cls 2 (.get "abc")]
/-- the next stage [no code] -/
def sub4 := sub3 ++ [.cls 1 (.setdefault "ghi" (.int 789)), .cls 1 (.setdefault "ghi" (s "blah"))]
/-- the next stage [no code] -/
def sub5 := sub4 ++ [.cls 2 (.pop "def" (some (s "blah"))), .cls 2 (.pop "def" (some (s "blah"))), .cls 2 (.pop "def" .none)]
/-- the last stage [no code] -/
def sub6 := sub5 ++ [.cls 2 .clear]

/-- the results of the third stage [no code] -/
def subRes3 : List (PropRes PyVal) := [.done, .done, .done, .keyError, .keyError]
/-- the results of the fourth stage [no code] -/
def subRes4 : List (PropRes PyVal) := subRes3 ++ [.value (some (.int 789)), .value (some (.int 789))]
/-- the results of the fifth stage [no code] -/
def subRes5 : List (PropRes PyVal) := subRes4 ++ [.value (some (.int 456)), .value (some (s "blah")), .keyError]

example : propTest [] sub1 [.done] [(.cls 0, []), (.cls 1, []), (.cls 2, [("def", .int 456)])] := by decide +kernel
example : propTest [] sub2 [.done, .done] [(.cls 0, [("abc", .int 123)]), (.cls 1, [("abc", .int 123)]), (.cls 2, [("abc", .int 123), ("def", .int 456)])] := by decide +kernel
example : propTest [] sub3 subRes3 [(.cls 0, [("abc", .int 123)]), (.cls 1, []), (.cls 2, [("def", .int 456)])] := by decide +kernel
example : propTest [] sub4 subRes4 [(.cls 0, [("abc", .int 123)]), (.cls 1, [("ghi", .int 789)]), (.cls 2, [("ghi", .int 789), ("def", .int 456)])] := by decide +kernel
example : propTest [] sub5 subRes5 [(.cls 0, [("abc", .int 123)]), (.cls 1, [("ghi", .int 789)]), (.cls 2, [("ghi", .int 789)])] := by decide +kernel
example : propTest [] sub6 (subRes5 ++ [.done]) [(.cls 0, [("abc", .int 123)]), (.cls 1, [("ghi", .int 789)]), (.cls 2, [])] := by decide +kernel
/-! test_subclass_override -/
example : propTest [] [] [] [(.cls 3, [("def", .int 456)]), (.cls 1, []), (.cls 0, [])] := by decide +kernel
example : propTest [] [.cls 0 (.set "abc" (.int 123))] [.done] [(.cls 3, [("def", .int 456)]), (.cls 1, [("abc", .int 123)]), (.cls 0, [("abc", .int 123)])] := by decide +kernel
/-! test_initialization -/
example : propTest [("abc", .int 123)] [.cls 0 (.set "def" (.int 456)), .cls 0 (.del "abc")] [.done, .done] [(.cls 0, [("def", .int 456)])] := by decide +kernel

/-! ## schema/test_forms.py -/

/-- a field class: its name and its type [no code] -/
def fieldClass : FieldClass String (String × String) := ⟨Prod.fst, fun f n => (n, f.2)⟩

/-- a member of a class body: an unnamed class given a name [no code] -/
def member' (n t : String) : String × Member (String × String) Unit := (n, .field ("", t))

/-- the `field_schema` of the last of several classes [no code] -/
def lastForm (ds : List (FormDecl String (String × String) Unit)) : Option (List (String × String)) := (formProgram fieldClass [] ds).getLast?

/-! test_inheritance_straight -/
example : formProgram fieldClass [] [⟨[], [], [member' "base_member" "String"]⟩, ⟨[0], [], [member' "added_member" "String"]⟩] =
    [[("base_member", "String")], [("base_member", "String"), ("added_member", "String")]] := by decide

/-- the classes A and B of test_inheritance_diamond [no code] -/
def formAB : List (FormDecl String (String × String) Unit) := [⟨[], [], [member' "a_member" "String"]⟩, ⟨[], [], [member' "b_member" "String"]⟩]

example : lastForm (formAB ++ [⟨[0, 1], [], []⟩]) = some [("a_member", "String"), ("b_member", "String")] := by decide
example : lastForm (formAB ++ [⟨[1, 0], [], []⟩]) = some [("b_member", "String"), ("a_member", "String")] := by decide
example : lastForm (formAB ++ [⟨[0, 1], [], [member' "ab_member" "String"]⟩]) = some [("a_member", "String"), ("b_member", "String"), ("ab_member", "String")] := by decide
example : lastForm (formAB ++ [⟨[0, 1], [], [member' "a_member" "Integer"]⟩]) = some [("b_member", "String"), ("a_member", "Integer")] := by decide
example : lastForm (formAB ++ [⟨[1, 0], [], [member' "a_member" "Integer", member' "b_member" "Integer"]⟩]) =
    some [("a_member", "Integer"), ("b_member", "Integer")] := by decide
example : lastForm (formAB ++ [⟨[1, 0], [("b_member", "Integer")], [member' "a_member" "Integer"]⟩]) = some [("b_member", "Integer"), ("a_member", "Integer")] := by decide
example : lastForm (formAB ++ [⟨[1, 0], [("ab_member", "Integer")], [member' "ab_member" "String"]⟩]) =
    some [("b_member", "String"), ("a_member", "String"), ("ab_member", "String")] := by decide

/-! test_from_object: what is passed to `set` for a schema with the fields x and y -/

/-- an object with these attributes [no code] -/
def obj (kvs : List (String × String)) : PyObj String String := fun a => kvs.lookup a

/-- `Schema.from_object(obj, ...).value` for the fields x and y, from the pairs given to `set` [no code] -/
def fromObj (kvs : List (String × String)) (sel : Selection String := {}) : Except PyErr (Option String × Option String) :=
  (objectPairs ["x", "y"] (obj kvs) sel (objectAttrs ["x", "y"] sel.rename sel.omitted)).map fun d => (dictGet d "x", dictGet d "y")

example : fromObj [] = .ok (.none, .none) := by decide
example : fromObj [("x", "x!")] = .ok (some "x!", .none) := by decide
example : fromObj [("x", "x!"), ("y", "y!")] = .ok (some "x!", some "y!") := by decide
example : fromObj [("x", "x!"), ("z", "z!")] = .ok (some "x!", .none) := by decide
example : fromObj [("x", "x!"), ("y", "y!")] { included := ["x"] } = .ok (some "x!", .none) := by decide
example : fromObj [("x", "x!"), ("y", "y!")] { omitted := ["y"] } = .ok (some "x!", .none) := by decide
example : fromObj [("x", "x!"), ("z", "z!")] { rename := [("z", "y")] } = .ok (some "x!", some "z!") := by decide
example : fromObj [("x", "x!"), ("z", "z!")] { rename := [("z", "z")] } = .ok (some "x!", .none) := by decide
example : fromObj [("x", "x!"), ("z", "z!")] { rename := [("x", "z")] } = .ok (.none, .none) := by decide

/-! test_composition -/

/-- the class Outer [no code] -/
def outer : Schema := dict "" [dict "the_in" [str "sound" (some (s "bleep"))], str "way_out" (some (s "mooooog"))]

/-- what the test wants [no code] -/
def outerWanted : PyVal := dct [("the_in", dct [("sound", s "bleep")]), ("way_out", s "mooooog")]

example : valueOf (fromDefaults outer) = .ok outerWanted := by decide +kernel
example : elemValue (fresh outer) = dct [("the_in", dct [("sound", .none)]), ("way_out", .none)] := by decide +kernel
example : elemValue (made outer outerWanted) = outerWanted := by decide +kernel

/-! ## tests/test_forms.py -/

/-- REQUEST_DATA [no code] -/
def requestData : List (PStr × PStr) := flat [("abc", "123"), ("surname", "SN"), ("xjioj", "1232"), ("age", "99"), ("fname", "FN"), ("ns_fname", "ns_FN"),
  ("ns_surname", "ns_SN"), ("ns_snacks_0_name", "cheez"), ("ns_snacks_1_name", "chipz"), ("ns_snacks_2_name", "chimp"), ("ns_squiznart", "xyyzy"), ("ns_age", "23")]

/-- SimpleForm1 with a name [no code] -/
def simpleForm1 (n : String) : Schema := dict n [str "fname", str "surname", int "age", list "snacks" (str "name")]

/-! test_straight_parse -/
example : (fromFlat us (simpleForm1 "") requestData).map (flatten us) = .ok (flat [("fname", "FN"), ("surname", "SN"), ("age", "99")]) := by decide +kernel
example : valueOf (fromFlat us (simpleForm1 "") requestData) =
    .ok (dct [("fname", s "FN"), ("surname", s "SN"), ("age", .int 99), ("snacks", .list [])]) := by decide +kernel

/-- what test_namespaced_parse wants [no code] -/
def nsOutput : PyVal := dct [("fname", s "ns_FN"), ("surname", s "ns_SN"), ("age", .int 23), ("snacks", strs ["cheez", "chipz", "chimp"])]

/-- the pairs it wants [no code] -/
def nsPairs : List (PStr × PStr) := flat [("ns_fname", "ns_FN"), ("ns_surname", "ns_SN"), ("ns_age", "23"), ("ns_snacks_0_name", "cheez"),
  ("ns_snacks_1_name", "chipz"), ("ns_snacks_2_name", "chimp")]

example : (fromFlat us (simpleForm1 "ns") requestData).map (flatten us) = .ok nsPairs := by decide +kernel
example : valueOf (fromFlat us (simpleForm1 "ns") requestData) = .ok nsOutput := by decide +kernel
example : flatten us (made (simpleForm1 "ns") nsOutput) = nsPairs := by decide +kernel
example : elemValue (made (simpleForm1 "ns") nsOutput) = nsOutput := by decide +kernel

/-! test_default_behavior -/
example : elemValue (fresh (dict "" [str "fname" (some (s "FN")), str "surname"])) = dct [("fname", .none), ("surname", .none)] := by decide +kernel
example : valueOf (fromDefaults (dict "" [str "fname" (some (s "FN")), str "surname"])) =
    .ok (dct [("fname", s "FN"), ("surname", .none)]) := by decide +kernel
example : valueOf (fromDefaults (dict "" [dict "dict" [str "fname" (some (s "FN")), str "surname"]])) =
    .ok (dct [("dict", dct [("fname", s "FN"), ("surname", .none)])]) := by decide +kernel

/-! ## tests/test_utils.py -/

/-! test_luhn10 -/
example : luhn10 20 0 = some true := by decide
example : luhn10 20 4100000000000001 = some true := by decide
example : luhn10 20 4100000000000009 = some false := by decide

/-- PAIRS [no code] -/
def utilPairs : List (String × Nat) := [("a", 1), ("b", 2), ("c", 3), ("d", 4), ("d", 4), ("d", 5)]

example : keyslice (A := Nat) { included := ["1"], omitted := ["2"] } [] = .error .type := by decide
example : keyslice {} utilPairs = .ok utilPairs := by decide
example : keyslice { included := ["a"] } utilPairs = .ok [("a", 1)] := by decide
example : keyslice { included := ["a", "b"] } utilPairs = .ok [("a", 1), ("b", 2)] := by decide
example : keyslice { included := ["d"] } utilPairs = .ok [("d", 4), ("d", 4), ("d", 5)] := by decide
example : keyslice { included := ["a", "e"] } utilPairs = .ok [("a", 1)] := by decide
example : keyslice { omitted := ["d"] } utilPairs = .ok [("a", 1), ("b", 2), ("c", 3)] := by decide
example : keyslice { omitted := ["c", "d"] } utilPairs = .ok [("a", 1), ("b", 2)] := by decide
example : keyslice { omitted := ["c", "d", "e"] } utilPairs = .ok [("a", 1), ("b", 2)] := by decide
example : keyslice { omitted := ["a", "b", "c", "d"] } utilPairs = .ok [] := by decide
example : keyslice { rename := [("d", "Z")] } utilPairs = .ok [("a", 1), ("b", 2), ("c", 3), ("Z", 4), ("Z", 4), ("Z", 5)] := by decide
example : keyslice { rename := [("d", "Z"), ("e", "Y")] } utilPairs = .ok [("a", 1), ("b", 2), ("c", 3), ("Z", 4), ("Z", 4), ("Z", 5)] := by decide
example : keyslice { rename := [("a", "d"), ("b", "c"), ("c", "b"), ("d", "a")] } utilPairs =
    .ok [("d", 1), ("c", 2), ("b", 3), ("a", 4), ("a", 4), ("a", 5)] := by decide
example : keyslice { key := some fun k => if k = "d" then "13" else k, rename := [("13", "0")] } utilPairs =
    .ok [("a", 1), ("b", 2), ("c", 3), ("0", 4), ("0", 4), ("0", 5)] := by decide
example : keyslice { included := ["a"], rename := [("b", "X")] } utilPairs = .ok [("a", 1), ("X", 2)] := by decide
example : keyslice { omitted := ["b", "c", "d"], rename := [("b", "X")] } utilPairs = .ok [("a", 1), ("X", 2)] := by decide

/-! ## tests/test_richtypes.py: test_simple -/

/-- the errors and the result of `validate()` for a card number element labelled num and set to a text, or not set [no code] -/
def card (v : PyVal) : Option (List PStr × Except PyErr Bool) :=
  cardValidate 40 "num".toList cardAccepted false (setTo creditCardType v) [] cardDefaults

example : card .none = some (["num may not be blank.".toList], .ok false) := by decide +kernel
example : card (s "asdf") = some (["num is not correct.".toList], .ok false) := by decide +kernel
example : card (s "1234") = some (["num is not correct.".toList], .ok false) := by decide +kernel
example : card (s "4100000000000009") = some (["The num was not entered correctly.".toList], .ok false) := by decide +kernel
example : card (s "4100000000000001") = some ([], .ok true) := by decide +kernel
example : (setTo creditCardType (s "4100000000000001")).u = "4100-0000-0000-0001".toList := by decide +kernel

end Flatland.Conf
