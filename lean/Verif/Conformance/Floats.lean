import Verif.Conformance.Arrays
import Verif.Model.Floats
/-! /repo/tests/schema/test_scalars.py: test_float and test_decimal; the MultiValues of /repo/tests/schema/test_arrays.py -/
namespace Flatland.Conf
open Flatland

attribute [local instance] Runtime.ascii

/-! test_float: what `float` makes of the text, whether an unsigned Float takes it, and how it is shown.  (A text that `float` does not take is
kept as it is: see the other numbers in Conformance/Scalars.lean.) -/

/-- number, is it negative?, text [no code] -/
def floatShown (places : Nat) (t : String) : Except PyErr (FloatVal × Bool × PStr) :=
  (floatOfText (strip t.toList)).map fun x => (x, floatNegative x, floatText places x)

example : floatShown 6 "123" = .ok (.fin false 123, false, "123.000000".toList) := by decide +kernel
example : floatShown 6 " 123 " = .ok (.fin false 123, false, "123.000000".toList) := by decide +kernel
example : floatShown 6 "xyz" = .error .value := by decide +kernel
example : floatShown 6 "xyz123" = .error .value := by decide +kernel
example : floatShown 6 "123xyz" = .error .value := by decide +kernel
example : floatShown 6 "123.0" = .ok (.fin false 123, false, "123.000000".toList) := by decide +kernel
example : floatShown 6 "+123" = .ok (.fin false 123, false, "123.000000".toList) := by decide +kernel
example : floatShown 6 "-123" = .ok (.fin true 123, true, "-123.000000".toList) := by decide +kernel
example : floatShown 6 " +123 " = .ok (.fin false 123, false, "123.000000".toList) := by decide +kernel
example : floatShown 6 " -123 " = .ok (.fin true 123, true, "-123.000000".toList) := by decide +kernel
example : floatShown 2 "123" = .ok (.fin false 123, false, "123.00".toList) := by decide +kernel
example : floatShown 2 "123.00" = .ok (.fin false 123, false, "123.00".toList) := by decide +kernel
example : (floatShown 2 "123.005").map (fun r => r.2.2) = .ok "123.00".toList := by decide +kernel

/-! test_decimal -/

/-- number, is it negative?, text [no code] -/
def decShown (places : Nat) (t : String) : Except PyErr (DecVal × Except PyErr Bool × Except PyErr PStr) :=
  (decOfText (strip t.toList)).map fun x => (x, decNegative x, (floatOfDec x).map (floatText places))

example : decShown 6 "123" = .ok (.fin false 123 0, .ok false, .ok "123.000000".toList) := by decide +kernel
example : decShown 6 " 123 " = .ok (.fin false 123 0, .ok false, .ok "123.000000".toList) := by decide +kernel
example : decShown 6 "xyz" = .error .arithmetic := by decide +kernel
example : decShown 6 "xyz123" = .error .arithmetic := by decide +kernel
example : decShown 6 "123xyz" = .error .arithmetic := by decide +kernel
example : decShown 6 "123.0" = .ok (.fin false 1230 (-1), .ok false, .ok "123.000000".toList) := by decide +kernel
example : decShown 6 "+123" = .ok (.fin false 123 0, .ok false, .ok "123.000000".toList) := by decide +kernel
example : decShown 6 "-123" = .ok (.fin true 123 0, .ok true, .ok "-123.000000".toList) := by decide +kernel
example : decShown 2 "123" = .ok (.fin false 123 0, .ok false, .ok "123.00".toList) := by decide +kernel
example : decShown 2 "12.34" = .ok (.fin false 1234 (-2), .ok false, .ok "12.34".toList) := by decide +kernel
example : decShown 2 "12.3456" = .ok (.fin false 123456 (-4), .ok false, .ok "12.35".toList) := by decide +kernel

/-! ## test_arrays.py: test_multivalue_set, test_multivalue_mutation -/

/-- value, text, length and truth value [no code] -/
def mvLook (st : List ScalarState) : PyVal × PStr × Nat × Bool := (mvValue st, mvU st, st.length, mvBool st)

/-- `el.set(values)` [no code] -/
def mvSet (st : List ScalarState) (v : Option (List PyVal)) : SeqOut (List ScalarState) Bool := seqSet intMember st (v.map these)

example : mvLook [] = (.none, [], 0, false) := by decide
example : (mvSet [] .none).2 = .ok false ∧ mvValue (mvSet [] .none).1 = .none := by decide +kernel
example : (mvSet [] (some [])).2 = .ok true ∧ mvValue (mvSet [] (some [])).1 = .none := by decide +kernel
example : (mvSet [] (some [.int 0])).2 = .ok true ∧ mvLook (mvSet [] (some [.int 0])).1 = (.int 0, ['0'], 1, true) := by decide +kernel
example : mvLook (mvSet [] (some [.int 0, .int 1])).1 = (.int 0, ['0'], 2, true) := by decide +kernel
example : mvLook (mvSet [] (some [.int 1, .int 2])).1 = (.int 1, ['1'], 2, true) := by decide +kernel
example : mvLook (seqInsert intMember (mvSet [] (some [.int 1, .int 2])).1 0 (.val (.int 0))).1 = (.int 0, ['0'], 3, true) := by decide +kernel
example : mvLook ((mvSet [] (some [.int 0, .int 1, .int 2])).1.modify 0 fun m => (scalarSet (integerType true 0) m (.int 9)).1) = (.int 9, ['9'], 3, true) := by
  decide +kernel

/-! test_multivalue_set_flat_*, test_multivalue_roundtrip: a MultiValue takes flat pairs as an Array does, see Conformance/Arrays.lean; bogus pairs as here -/
example : setsFlat (array "s" (str "")) [("s", "abc"), ("s", "def")] [("", "xxx")] := by decide +kernel
example : (setVal (array "" (str "s")) (strs ["abc", "def"])).map (fun x => flatten us x.1) = .ok (flat [("s", "abc"), ("s", "def")]) := by decide +kernel

end Flatland.Conf
