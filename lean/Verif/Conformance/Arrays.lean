import Verif.Conformance.Lists
import Verif.Model.Nodes
/-! /repo/tests/schema/test_arrays.py -/
namespace Flatland.Conf
open Flatland

attribute [local instance] Runtime.ascii

/-! test_set_flat_pruned, test_set_flat_unpruned, test_set_flat_like_named, …_unnamed_child, …_anonymous_array, …_fully_anonymous_array,
…_anonymous_dict -/
example : valueOf (fromFlat us (array "" (str "s")) (flat [("s", "val0"), ("s", ""), ("s", "val1"), ("s", "")])) = .ok (strs ["val0", "val1"]) := by
  decide +kernel
example : setsFlat (array "s" (str "") (prune := false)) [("s", "val0"), ("s", ""), ("s", "val1"), ("s", "")] [] := by decide +kernel
example : setsFlat (array "s" (str "s")) [("s_s", "abc"), ("s_s", "def")] [("s", "xxx")] := by decide +kernel
example : setsFlat (array "s" (str "")) [("s", "abc"), ("s", "def")] [("", "xxx"), ("s_bar", "")] := by decide +kernel
example : setsFlat (array "" (str "s")) [("s", "abc"), ("s", "def")] [("", "xxx")] := by decide +kernel
example : setsFlat (array "" (str "")) [("", "abc"), ("", "def")] [] := by decide +kernel
example : (fromFlat us (array "" (dict "" [str "x"])) (flat [("x", "abc"), ("x", "def")])).map (fun _ => ()) = .error .assertion := by decide +kernel

/-! test_set, test_set_default -/
example : setResult (setVal (array "" (int "")) (.int 1)) = .ok (ints [], false) ∧ setResult (setVal (array "" (int "")) (ints [])) = .ok (ints [], true) ∧
  setResult (setVal (array "" (int "")) (ints [1])) = .ok (ints [1], true) ∧
  setResult (setVal (array "" (int "")) (ints [1, 2, 3])) = .ok (ints [1, 2, 3], true) := by decide +kernel
example : elemValue (fresh (array "" (str "") (d := some (strs ["x", "y"])))) = strs [] ∧
  valueOf (fromDefaults (array "" (str "") (d := some (strs ["x", "y"])))) = .ok (strs ["x", "y"]) ∧
  valueOf (thenDefault (array "" (str "") (d := some (strs ["x", "y"]))) (strs ["x", "y", "z"])) = .ok (strs ["x", "y"]) ∧
  valueOf (fromDefaults (array "" (str "" (some (s "not triggered"))) (d := some (strs ["x"])))) = .ok (strs ["x"]) ∧
  valueOf (fromDefaults (array "" (str "" (some (s "x"))))) = .ok (strs []) := by decide +kernel

/-! test_mutation -/

/-- `String` as member class [no code] -/
def strMember : MemberClass PyVal ScalarState := scalarMember (stringType true) fun st => .str st.u

/-- the values of the members [no code] -/
def vals (st : List ScalarState) : List PyVal := st.map ScalarState.value

/-- an iterable of these [no code] -/
def these (vs : List PyVal) : Iter PyVal ScalarState := ⟨vs.map .val, .none⟩

/-- an Array of Strings with these values [no code] -/
def arrayOf (ts : List String) : List ScalarState := (seqExtend strMember [] (these (ts.map s))).1

example : vals (seqAppend strMember (arrayOf ["b"]) (.val (s "x"))).1 = [s "b", s "x"] := by decide +kernel
example : vals (seqSetItem strMember (arrayOf ["b", "x"]) 1 (.val (s "a"))).1 = [s "b", s "a"] := by decide +kernel
example : vals (seqRemove strMember (arrayOf ["b", "a"]) (.val (s "b"))).1 = [s "a"] := by decide +kernel
example : pyIter (s "bcdefg") = .ok [s "b", s "c", s "d", s "e", s "f", s "g"] ∧
  vals (seqExtend strMember (arrayOf ["a"]) (these [s "b", s "c", s "d", s "e", s "f", s "g"])).1 =
    [s "a", s "b", s "c", s "d", s "e", s "f", s "g"] := by decide +kernel
example : vals (seqSetSlice strMember (arrayOf []) .none .none .none (these [s "a", s "b", s "c"])).1 = [s "a", s "b", s "c"] := by decide +kernel
example : vals (seqInsert strMember (arrayOf ["a", "b", "c"]) 1 (.val (s "z"))).1 = [s "a", s "z", s "b", s "c"] := by decide +kernel
example : (setVal (array "" (str "")) (s "f")).map (fun x => elemU urepr x.1) = .ok "[u'f']".toList ∧
  elemU urepr (fresh (array "" (str ""))) = "[]".toList := by decide +kernel

/-! test_el -/

/-- `Array.of(String.named('s'))('abc')` [no code] -/
def abc : Elem := match setVal (array "" (str "s")) (s "abc") with
  | .ok (e, _) => e
  | .error _ => .absent

example : elemValue abc = strs ["a", "b", "c"] := by decide +kernel
example : elPath abc ⟨[], false⟩ "0".toList ".".toList = .ok ⟨[0], false⟩ ∧ elPath abc ⟨[], false⟩ "2".toList ".".toList = .ok ⟨[2], false⟩ ∧
  elPath abc ⟨[], false⟩ "a".toList ".".toList = .error .key := by decide +kernel

end Flatland.Conf
