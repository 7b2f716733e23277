import Verif.Conformance.Base
/-! /repo/tests/schema/test_scalars.py, without Float and Decimal, for which see Conformance/Floats.lean -/
namespace Flatland.Conf
open Flatland

attribute [local instance] Runtime.ascii

/-- `type_(); element.set(raw)` [no code] -/
def setTo (t : ScalarType) (raw : PyVal) : ScalarState := (scalarSet t .fresh raw).1

/-- `validate_element_set` [no code] -/
def sets (t : ScalarType) (raw value : PyVal) (uni : String) (result : Bool) : Prop :=
  (scalarSet t .fresh raw).2 = .ok result ∧ (setTo t raw).value = value ∧ (setTo t raw).u = uni.toList ∧
    scalarBool (setTo t raw) = (!uni.toList.isEmpty && truthy value)

instance (t : ScalarType) (raw value : PyVal) (uni : String) (result : Bool) : Decidable (sets t raw value uni result) := by unfold sets; infer_instance

/-! test_string -/
example : sets (stringType true) (s "abc") (s "abc") "abc" true := by decide +kernel
example : sets (stringType true) (.int (123)) (s "123") "123" true := by decide +kernel
example : sets (stringType true) (s "abc ") (s "abc") "abc" true := by decide +kernel
example : sets (stringType true) (s " abc ") (s "abc") "abc" true := by decide +kernel
example : sets (stringType false) (s "abc ") (s "abc ") "abc " true := by decide +kernel
example : sets (stringType false) (s " abc ") (s " abc ") " abc " true := by decide +kernel
example : sets (stringType true) (s "") (s "") "" true := by decide +kernel
example : sets (stringType true) .none .none "" true := by decide +kernel
example : stringIsEmpty (setTo (stringType true) (s "")) = true ∧ stringIsEmpty (setTo (stringType true) (s "foo")) = false := by decide +kernel

/-! test_integer, test_long -/
example : sets (integerType true 0) (s "123") (.int (123)) "123" true := by decide +kernel
example : sets (integerType true 0) (s " 123 ") (.int (123)) "123" true := by decide +kernel
example : sets (integerType true 0) (s "xyz") .none "xyz" false := by decide +kernel
example : sets (integerType true 0) (s "xyz123") .none "xyz123" false := by decide +kernel
example : sets (integerType true 0) (s "123xyz") .none "123xyz" false := by decide +kernel
example : sets (integerType true 0) (s "123.0") .none "123.0" false := by decide +kernel
example : sets (integerType true 0) (s "+123") (.int (123)) "123" true := by decide +kernel
example : sets (integerType true 0) (s "-123") (.int (-123)) "-123" true := by decide +kernel
example : sets (integerType true 0) (s " +123 ") (.int (123)) "123" true := by decide +kernel
example : sets (integerType true 0) (s " -123 ") (.int (-123)) "-123" true := by decide +kernel
example : sets (integerType true 0) (.int (123)) (.int (123)) "123" true := by decide +kernel
example : sets (integerType true 0) .none .none "" true := by decide +kernel
example : sets (integerType false 0) (s "+123") (.int (123)) "123" true := by decide +kernel
example : sets (integerType false 0) (s "-123") .none "-123" false := by decide +kernel
example : sets (integerType false 0) (.int (-123)) .none "-123" false := by decide +kernel

/-! test_boolean -/
example : sets (booleanType {}) (s "on") (.bool true) "1" true := by decide +kernel
example : sets (booleanType { true_ := "baz".toList }) (s "on") (.bool true) "baz" true := by decide +kernel
example : sets (booleanType {}) (s "true") (.bool true) "1" true := by decide +kernel
example : sets (booleanType { true_ := "baz".toList }) (s "true") (.bool true) "baz" true := by decide +kernel
example : sets (booleanType {}) (s "True") (.bool true) "1" true := by decide +kernel
example : sets (booleanType { true_ := "baz".toList }) (s "True") (.bool true) "baz" true := by decide +kernel
example : sets (booleanType {}) (s "1") (.bool true) "1" true := by decide +kernel
example : sets (booleanType { true_ := "baz".toList }) (s "1") (.bool true) "baz" true := by decide +kernel
example : sets (booleanType {}) (s "off") (.bool false) "" true := by decide +kernel
example : sets (booleanType { false_ := "quux".toList }) (s "off") (.bool false) "quux" true := by decide +kernel
example : sets (booleanType {}) (s "false") (.bool false) "" true := by decide +kernel
example : sets (booleanType { false_ := "quux".toList }) (s "false") (.bool false) "quux" true := by decide +kernel
example : sets (booleanType {}) (s "False") (.bool false) "" true := by decide +kernel
example : sets (booleanType { false_ := "quux".toList }) (s "False") (.bool false) "quux" true := by decide +kernel
example : sets (booleanType {}) (s "0") (.bool false) "" true := by decide +kernel
example : sets (booleanType { false_ := "quux".toList }) (s "0") (.bool false) "quux" true := by decide +kernel
example : sets (booleanType {}) (s "") (.bool false) "" true := by decide +kernel
example : sets (booleanType { false_ := "quux".toList }) (s "") (.bool false) "quux" true := by decide +kernel
example : sets (booleanType {}) (s "abc") .none "abc" false := by decide +kernel
example : sets (booleanType {}) (s "1.0") .none "1.0" false := by decide +kernel
example : sets (booleanType {}) (s "0.0") .none "0.0" false := by decide +kernel
example : sets (booleanType {}) (s "None") .none "None" false := by decide +kernel
example : sets (booleanType {}) (.int (0)) (.bool false) "" true := by decide +kernel
example : sets (booleanType {}) (.dict []) (.bool false) "" true := by decide +kernel

/-! test_date, test_time, test_datetime -/
example : sets (dateType true) (s "2009-10-10") (.date 2009 10 10) "2009-10-10" true := by decide +kernel
example : sets (dateType true) (s "2010-08-02") (.date 2010 8 2) "2010-08-02" true := by decide +kernel
example : sets (dateType true) (s " 2010-08-02 ") (.date 2010 8 2) "2010-08-02" true := by decide +kernel
example : sets (dateType true) (s "2011-8-2") .none "2011-8-2" false := by decide +kernel
example : sets (dateType true) (s "blagga") .none "blagga" false := by decide +kernel
example : sets (dateType true) .none .none "" true := by decide +kernel
example : sets (dateType false) (s " 2010-08-02 ") .none " 2010-08-02 " false := by decide +kernel
example : sets (timeType true) (s "08:09:10") (.time 8 9 10 0) "08:09:10" true := by decide +kernel
example : sets (timeType true) (s "23:24:25") (.time 23 24 25 0) "23:24:25" true := by decide +kernel
example : sets (timeType true) (s "24:25:26") .none "24:25:26" false := by decide +kernel
example : sets (timeType true) (s "bogus") .none "bogus" false := by decide +kernel
example : sets (timeType true) .none .none "" true := by decide +kernel
example : sets (dateTimeType true) (s "2009-10-10 08:09:10") (.datetime 2009 10 10 8 9 10 0) "2009-10-10 08:09:10" true := by decide +kernel
example : sets (dateTimeType true) (s "2010-08-02 25:26:27") .none "2010-08-02 25:26:27" false := by decide +kernel
example : sets (dateTimeType true) (s "2010-13-22 09:09:09") .none "2010-13-22 09:09:09" false := by decide +kernel
example : sets (dateTimeType true) .none .none "" true := by decide +kernel

/-! test_scalar_set_flat -/

/-- the value after `set_flat` [no code] -/
def afterFlat (n : String) : Except PyErr PyVal := valueOf (fromFlat us (str n) (flat [("a", "1"), ("b", "2"), ("a", "3")]))

example : afterFlat "a" = .ok (s "1") ∧ afterFlat "b" = .ok (s "2") ∧ afterFlat "c" = .ok .none := by decide +kernel

/-! test_scalar_set_default -/
example : valueOf (fromDefaults (int "")) = .ok .none ∧ valueOf (fromDefaults (int "" (some (.int 10)))) = .ok (.int 10) := by decide +kernel

end Flatland.Conf
