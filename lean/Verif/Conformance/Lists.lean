import Verif.Conformance.Base
/-! /repo/tests/schema/test_lists.py -/
namespace Flatland.Conf
open Flatland

attribute [local instance] Runtime.ascii

/-- `List.named(u'l').of(Integer.named(u'i'))` [no code] -/
def listI : Schema := list "l" (int "i")

/-! test_set_flat_linear (with texts), test_set_flat_miss, test_set_flat_scalar -/
example : valueOf (fromFlat us listI (flat [("l_0_i", "1"), ("l_1_i", "2"), ("l_2_i", "3")])) = .ok (ints [1, 2, 3]) := by decide +kernel
example : valueOf (fromFlat us listI (flat [("l_galump", "3"), ("l_snorgle", "4")])) = .ok (ints []) := by decide +kernel
example : valueOf (fromFlat us listI (flat [("l", "1")])) = .ok (ints []) := by decide +kernel

/-! test_set_flat_pruned, test_set_flat_unpruned -/
example : valueOf (fromFlat us listI (flat [("l_0_i", "0"), ("l_2_i", ""), ("l_3_i", "3")])) = .ok (ints [0, 3]) := by decide +kernel
example : valueOf (fromFlat us (list "l" (int "i") (max := 1)) (flat [("l_0_i", "0"), ("l_2_i", ""), ("l_3_i", "3")])) = .ok (ints [0]) := by decide +kernel
example : valueOf (fromFlat us (list "l" (int "i") (prune := false)) (flat [("l_0_i", "0"), ("l_2_i", ""), ("l_3_i", "3")])) =
  .ok (.list [.int 0, .none, .none, .int 3]) := by decide +kernel
example : valueOf (fromFlat us (list "l" (int "i") (prune := false) (max := 2)) (flat [("l_0_i", "0"), ("l_2_i", ""), ("l_3_i", "3")])) =
  .ok (.list [.int 0, .none]) := by decide +kernel

/-- `_assert_set_flat` [no code] -/
def setsFlat (sc : Schema) (pairs bogus : List (String × String)) : Prop :=
  valueOf (fromFlat us sc (flat (pairs ++ bogus))) = .ok (strs (pairs.map Prod.snd)) ∧
    (fromFlat us sc (flat (pairs ++ bogus))).map (flatten us) = .ok (flat pairs)

instance (sc : Schema) (pairs bogus : List (String × String)) : Decidable (setsFlat sc pairs bogus) := by unfold setsFlat; infer_instance

/-! test_set_flat_unnamed_child, test_set_flat_anon_list_named_child, test_set_flat_fully_anonymous -/
example : setsFlat (list "s" (str "")) [("s_0", "abc"), ("s_1", "def")] [("s", "xxx")] := by decide +kernel
example : setsFlat (list "" (str "s")) [("0_s", "abc"), ("1_s", "def")] [("s", "xxx"), ("0", "yyy")] := by decide +kernel
example : setsFlat (list "" (str "")) [("0", "abc"), ("1", "def")] [("x", "xxx")] := by decide +kernel

/-! test_set_flat_anonymous_dict, test_set_flat_doubly_anonymous_dict -/
example : valueOf (fromFlat us (list "l" (dict "" [str "x", str "y"]))
    (flat [("l_0_x", "x0"), ("l_0_y", "y0"), ("l_1_x", "x1"), ("l_1_y", "y1"), ("l_2_x", "x2")])) =
  .ok (.list [dct [("x", s "x0"), ("y", s "y0")], dct [("x", s "x1"), ("y", s "y1")], dct [("x", s "x2"), ("y", .none)]]) := by decide +kernel
example : valueOf (fromFlat us (list "" (dict "" [str "x", str "y"]))
    (flat [("0_x", "x0"), ("0_y", "y0"), ("1_x", "x1"), ("1_y", "y1"), ("2_x", "x2")])) =
  .ok (.list [dct [("x", s "x0"), ("y", s "y0")], dct [("x", s "x1"), ("y", s "y1")], dct [("x", s "x2"), ("y", .none)]]) := by decide +kernel

/-! test_set_default_int -/

/-- `factory(count)` [no code] -/
def counted (d : Option PyVal) : Schema := list "l" (str "s" (some (s "val"))) (d := d)

/-- `el = schema(value); el.set_default()` [no code] -/
def thenDefault (sc : Schema) (v : PyVal) : Except PyErr Elem := match setVal sc v with
  | .error er => .error er
  | .ok (e, _) => setDefault sc e

example : elemValue (fresh (counted (some (.int 3)))) = ints [] := by decide +kernel
example : valueOf (fromDefaults (counted (some (.int 3)))) = .ok (strs ["val", "val", "val"]) := by decide +kernel
example : valueOf (thenDefault (counted (some (.int 3))) (strs ["a", "b"])) = .ok (strs ["val", "val", "val"]) := by decide +kernel
example : valueOf (fromDefaults (counted (some (.int 0)))) = .ok (strs []) := by decide +kernel

/-! test_set_default_value, test_set_default_none -/
example : valueOf (fromDefaults (counted (some (strs ["a", "b"])))) = .ok (strs ["a", "b"]) := by decide +kernel
example : valueOf (thenDefault (counted (some (strs ["a", "b"]))) (strs ["c", "d"])) = .ok (strs ["a", "b"]) := by decide +kernel
example : valueOf (fromDefaults (counted (some (strs [])))) = .ok (strs []) := by decide +kernel
example : valueOf (fromDefaults (counted (some .none))) = .ok (strs []) ∧ valueOf (fromDefaults (counted .none)) = .ok (strs []) := by decide +kernel
example : valueOf (thenDefault (counted (some .none)) (strs ["a", "b"])) = .ok (strs ["a", "b"]) := by decide +kernel

/-! test_set -/
example : setResult (setVal (list "" (int "")) (.int 1)) = .ok (ints [], false) := by decide +kernel
example : setResult (setVal (list "" (int "")) .none) = .ok (ints [], false) := by decide +kernel
example : setResult (setVal (list "" (int "")) (ints [0, 1, 2])) = .ok (ints [0, 1, 2], true) := by decide +kernel
example : setResult (setVal (list "" (int "")) (ints [])) = .ok (ints [], true) := by decide +kernel

/-! test_access, test_mutation, test_mutate_slices, test_reverse, test_sort: the Integers of a List -/

/-- the member class [no code] -/
def intMember : MemberClass PyVal ScalarState := scalarMember (integerType true 0) fun st => .str st.u

/-- a List with these values [no code] -/
def listOf (vs : List PyVal) : Slots ScalarState := (listExtend intMember [] ⟨vs.map .val, .none⟩).1

/-- names of the slots and values of the members [no code] -/
def shown (st : Slots ScalarState) : List (PStr × PyVal) := st.map fun x => (x.name, x.elem.value)

/-- slots named 0, 1, … with these values: `order_ok()` [no code] -/
def slots (vs : List PyVal) : List (PStr × PyVal) := (List.range vs.length).zip vs |>.map fun x => (decimal x.1, x.2)

/-- an Integer of this value [no code] -/
def anInt (i : Int) : ScalarState := (scalarSet (integerType true 0) .fresh (.int i)).1

/-- the value of what is returned [no code] -/
def valOf (r : Except PyErr ScalarState) : Except PyErr PyVal := r.map ScalarState.value

example : valOf (listGet (listOf [s "10", s "11", s "12"]) 0) = .ok (.int 10) := by decide +kernel
example : seqContains intMember (members (listOf [s "10", s "11", s "12"])) (.el (anInt 10)) = .ok true ∧
  seqContains intMember (members (listOf [s "10", s "11", s "12"])) (.val (s "10")) = .ok true ∧
  seqContains intMember (members (listOf [s "10", s "11", s "12"])) (.val (.int 10)) = .ok true := by decide +kernel
example : seqCount intMember (members (listOf [s "10", s "11", s "12"])) (.el (anInt 10)) = .ok 1 ∧
  seqCount intMember (members (listOf [s "10", s "11", s "12"])) (.val (s "10")) = .ok 1 ∧
  seqCount intMember (members (listOf [s "10", s "11", s "12"])) (.val (.int 10)) = .ok 1 := by decide +kernel
example : seqIndexOf intMember (members (listOf [s "10", s "11", s "12"])) (.el (anInt 10)) = .ok 0 ∧
  seqIndexOf intMember (members (listOf [s "10", s "11", s "12"])) (.val (s "10")) = .ok 0 ∧
  seqIndexOf intMember (members (listOf [s "10", s "11", s "12"])) (.val (.int 10)) = .ok 0 := by decide +kernel

/-- the steps of test_mutation [no code] -/
def mutation : List (ListOp PyVal ScalarState Int) :=
  [.append (.el (anInt 0)), .append (.val (s "123")), .extend ⟨[.val (s "4"), .val (s "5")], .none⟩, .setItem 0 (.val (s "3")), .insert 0 (.val (s "2")),
   .pop (-1), .pop 0, .remove (.val (s "3")), .delSlice .none .none .none]

/-- after so many steps [no code] -/
def mutated (n : Nat) : Slots ScalarState := (mutation.take n).foldl (listStep intMember) []

example : shown (mutated 1) = slots [.int 0] ∧ shown (mutated 2) = slots [.int 0, .int 123] ∧
  shown (mutated 3) = slots [.int 0, .int 123, .int 4, .int 5] ∧ shown (mutated 4) = slots [.int 3, .int 123, .int 4, .int 5] ∧
  shown (mutated 5) = slots [.int 2, .int 3, .int 123, .int 4, .int 5] ∧ shown (mutated 6) = slots [.int 2, .int 3, .int 123, .int 4] ∧
  shown (mutated 7) = slots [.int 3, .int 123, .int 4] ∧ shown (mutated 8) = slots [.int 123, .int 4] ∧ shown (mutated 9) = [] := by decide +kernel
example : (listPop (mutated 5) (-1)).2.map (fun x => x.elem.value) = .ok (.int 5) ∧ (listPop (mutated 6) 0).2.map (fun x => x.elem.value) = .ok (.int 2) := by
  decide +kernel

example : shown (listSetSlice intMember (listOf [s "3", s "4"]) (some 0) (some 1) .none ⟨[.val (s "1"), .val (s "2"), .val (s "3")], .none⟩).1 =
  slots [.int 1, .int 2, .int 3, .int 4] := by decide +kernel
example : shown (listDelSlice (listOf [.int 1, .int 2, .int 3, .int 4]) (some 2) .none .none).1 = slots [.int 1, .int 2] := by decide +kernel
example : shown (listReverse (listOf [.int 2, .int 1])).1 = slots [.int 1, .int 2] := by decide +kernel

/-- `key=lambda el: el.value` [no code] -/
def valueKey (x : LSlot ScalarState) : Int := match x.elem.value with
  | .int i => i
  | _ => 0

example : shown (listSort (listOf [.int 2, .int 1]) (.done (fun a b => decide (a < b)) valueKey false)).1 = slots [.int 1, .int 2] ∧
  shown (listSort (listOf [.int 1, .int 2]) (.done (fun a b => decide (a < b)) valueKey true)).1 = slots [.int 2, .int 1] := by decide +kernel

/-! test_reverse, flatten; test_u, test_value -/
example : (setVal listI (ints [2, 1])).map (fun x => flatten us x.1) = .ok (flat [("l_0_i", "2"), ("l_1_i", "1")]) := by decide +kernel
example : (setVal (list "" (str "")) (strs ["x", "x"])).map (fun x => elemU urepr x.1) = .ok "[u'x', u'x']".toList := by decide +kernel
example : setResult (setVal (list "" (str "")) (strs ["x", "x"])) = .ok (strs ["x", "x"], true) := by decide +kernel

end Flatland.Conf
