import Verif.Conformance.Base
import Verif.Model.TreeRules
/-! /repo/tests/schema/test_paths.py -/
namespace Flatland.Conf
open Flatland Flatland.Spec

attribute [local instance] Runtime.ascii

/-! test_tokenize, test_tokenize_escapes -/
example : tokenize ".".toList = .ok [.here] := by decide +kernel
example : tokenize "/".toList = .ok [.top] := by decide +kernel
example : tokenize "..".toList = .ok [.up] := by decide +kernel
example : tokenize "/..".toList = .ok [.top] := by decide +kernel
example : tokenize "../..".toList = .ok [.up, .up] := by decide +kernel
example : tokenize "//".toList = .ok [.top, .name .none] := by decide +kernel
example : tokenize "foo".toList = .ok [.name (some "foo".toList)] := by decide +kernel
example : tokenize "/foo".toList = .ok [.top, .name (some "foo".toList)] := by decide +kernel
example : tokenize "foo/".toList = .ok [.name (some "foo".toList)] := by decide +kernel
example : tokenize "foo/bar".toList = .ok [.name (some "foo".toList), .name (some "bar".toList)] := by decide +kernel
example : tokenize "foo/../bar".toList = .ok [.name (some "bar".toList)] := by decide +kernel
example : tokenize "foo/./bar".toList = .ok [.name (some "foo".toList), .name (some "bar".toList)] := by decide +kernel
example : tokenize "foo/./bar/.".toList = .ok [.name (some "foo".toList), .name (some "bar".toList)] := by decide +kernel
example : tokenize "foo/bar[bogus]".toList = .ok [.name (some "foo".toList), .name (some "bar[bogus]".toList)] := by decide +kernel
example : tokenize "a[b][c:d][0]".toList = .ok [.name (some "a[b][c:d]".toList), .name (some "0".toList)] := by decide +kernel
example : tokenize ".[1]".toList = .ok [.name (some "1".toList)] := by decide +kernel
example : tokenize "foo[1]".toList = .ok [.name (some "foo".toList), .name (some "1".toList)] := by decide +kernel
example : tokenize "foo[1]/".toList = .ok [.name (some "foo".toList), .name (some "1".toList)] := by decide +kernel
example : tokenize "./foo[1]/".toList = .ok [.name (some "foo".toList), .name (some "1".toList)] := by decide +kernel
example : tokenize "foo[1][2][3]".toList = .ok [.name (some "foo".toList), .name (some "1".toList), .name (some "2".toList), .name (some "3".toList)] := by decide +kernel
example : tokenize "[1][2][3]".toList = .ok [.name (some "1".toList), .name (some "2".toList), .name (some "3".toList)] := by decide +kernel
example : tokenize "[1]/foo/[2]".toList = .ok [.name (some "1".toList), .name (some "foo".toList), .name (some "2".toList)] := by decide +kernel
example : tokenize "[:]".toList = .ok [.slice .none .none .none] := by decide +kernel
example : tokenize "[1:]".toList = .ok [.slice (some (1)) .none .none] := by decide +kernel
example : tokenize "[1:2]".toList = .ok [.slice (some (1)) (some (2)) .none] := by decide +kernel
example : tokenize "[:5]".toList = .ok [.slice (some (0)) (some (5)) .none] := by decide +kernel
example : tokenize "[-5:]".toList = .ok [.slice (some (-5)) .none .none] := by decide +kernel
example : tokenize "[1:8:2]".toList = .ok [.slice (some (1)) (some (8)) (some (2))] := by decide +kernel
example : tokenize "\\.".toList = .ok [.name (some ".".toList)] := by decide +kernel
example : tokenize "\\/".toList = .ok [.name (some "/".toList)] := by decide +kernel
example : tokenize "\\.\\.".toList = .ok [.name (some "..".toList)] := by decide +kernel
example : tokenize "/\\.\\.".toList = .ok [.top, .name (some "..".toList)] := by decide +kernel
example : tokenize "\\/..".toList = .ok [.name (some "/..".toList)] := by decide +kernel
example : tokenize "..\\/..".toList = .ok [.name (some "../..".toList)] := by decide +kernel
example : tokenize "foo\\[1]".toList = .ok [.name (some "foo[1]".toList)] := by decide +kernel
example : tokenize "foo\\/bar".toList = .ok [.name (some "foo/bar".toList)] := by decide +kernel
example : tokenize "\\/foo".toList = .ok [.name (some "/foo".toList)] := by decide +kernel
example : tokenize "foo\\/".toList = .ok [.name (some "foo/".toList)] := by decide +kernel

/-! test_evaluation (without the compound `dt1`, for which see Conformance/Compounds.lean) -/

/-- `Schema` of the tests [no code] -/
def pathForm : Schema := dict "" [
  int "i1" (some (.int 0)),
  dict "d1" [int "d1i1" (some (.int 1)), int "d1i2" (some (.int 2))],
  list "l1" (int "l1i1" (some (.int 3))) (d := some (.int 2)),
  list "l2" (dict "" [int "l2i1" (some (.int 4)), int "l2i2" (some (.int 5))]) (d := some (.int 3)),
  list "l3" (list "l3l1" (int "" (some (.int 6))) (d := some (.int 2))) (d := some (.int 2)),
  array "a1" (int "") (d := some (ints [10, 11, 12, 13, 14, 15]))]

/-- `Schema.from_defaults()` [no code] -/
def pathEl : Elem := match fromDefaults pathForm with
  | .ok e => e
  | .error _ => .absent

/-- the values found from an element, given by its position [no code] -/
def finds (start : Pos) (path : String) (strict : Bool := false) : Except PyErr (List PyVal) :=
  (findNodes pathEl strict ⟨start, false⟩ path.toList).map fun ns => ns.map fun n => elemValue ((elemAt pathEl n.pos).getD .absent)

example : finds [0] "." = .ok [.int 0] := by decide +kernel
example : finds [] "i1" = .ok [.int 0] := by decide +kernel
example : finds [] "/i1" = .ok [.int 0] := by decide +kernel
example : finds [] "../i1" = .ok [.int 0] := by decide +kernel
example : finds [] "../i1/." = .ok [.int 0] := by decide +kernel
example : finds [0] "../i1" = .ok [.int 0] := by decide +kernel
example : finds [] "d1/d1i1" = .ok [.int 1] := by decide +kernel
example : finds [] "/d1/d1i2" = .ok [.int 2] := by decide +kernel
example : finds [1, 0] ".." = .ok [dct [("d1i1", .int 1), ("d1i2", .int 2)]] := by decide +kernel
example : finds [] "/l1" = .ok [.list [.int 3, .int 3]] := by decide +kernel
example : finds [] "/l1[:]" = .ok [.int 3, .int 3] := by decide +kernel
example : finds [] "/l1[2:]" = .ok [] := by decide +kernel
example : finds [] "/l1[0]" = .ok [.int 3] := by decide +kernel
example : finds [] "./l1[0]" = .ok [.int 3] := by decide +kernel
example : finds [] "l1/.[0]" = .ok [.int 3] := by decide +kernel
example : finds [] "/l2[:]/l2i1" = .ok [.int 4, .int 4, .int 4] := by decide +kernel
example : finds [] "/l3[:]" = .ok [.list [.int 6, .int 6], .list [.int 6, .int 6]] := by decide +kernel
example : finds [] "/l3[:][:]" = .ok [.int 6, .int 6, .int 6, .int 6] := by decide +kernel
example : finds [] "l3[1:][1:]" = .ok [.int 6] := by decide +kernel
example : finds [] "a1[1:]" = .ok [.int 11, .int 12, .int 13, .int 14, .int 15] := by decide +kernel
example : finds [] "a1[:-1]" = .ok [.int 10, .int 11, .int 12, .int 13, .int 14] := by decide +kernel
example : finds [] "a1[3]" = .ok [.int 13] := by decide +kernel
example : finds [] "a1[2]" = .ok [.int 12] := by decide +kernel
example : finds [] "a1[1]" = .ok [.int 11] := by decide +kernel
example : finds [] "a1[0]" = .ok [.int 10] := by decide +kernel
example : finds [] "a1[-1]" = .ok [.int 15] := by decide +kernel
example : finds [] "a1[-2]" = .ok [.int 14] := by decide +kernel
example : finds [] "a1[-3]" = .ok [.int 13] := by decide +kernel
example : finds [] "a1[10]" = .ok [] := by decide +kernel
example : finds [] "a1[-10]" = .ok [] := by decide +kernel
example : finds [] "a1[-3:-1]" = .ok [.int 13, .int 14] := by decide +kernel
example : finds [] "a1[1:3]" = .ok [.int 11, .int 12] := by decide +kernel
example : finds [] "a1[:3]" = .ok [.int 10, .int 11, .int 12] := by decide +kernel
example : finds [] "a1[::2]" = .ok [.int 10, .int 12, .int 14] := by decide +kernel
example : finds [] "a1[2::2]" = .ok [.int 12, .int 14] := by decide +kernel
example : finds [] "a1[2:4:2]" = .ok [.int 12] := by decide +kernel
example : finds [] "a1[::-1]" = .ok [.int 15, .int 14, .int 13, .int 12, .int 11, .int 10] := by decide +kernel
example : finds [] "a1[::-2]" = .ok [.int 15, .int 13, .int 11] := by decide +kernel

/-! test_find_strict_loose -/
example : finds [] "bogus" true = .error .lookup ∧ finds [] "bogus" = .ok [] := by decide +kernel
example : finds [] "/d1/d1i3" true = .error .lookup ∧ finds [] "/d1/d1i3" = .ok [] := by decide +kernel
example : finds [] "l1[5]" true = .error .lookup ∧ finds [] "l1[5]" = .ok [] := by decide +kernel
example : finds [] "l3[:]/missing" true = .error .lookup ∧ finds [] "l3[:]/missing" = .ok [] := by decide +kernel

/-! test_find_default, test_find_single, test_find_single_loose, test_find_single_messaging -/

/-- `el.find(path, single=True, strict=strict)`, its value or None [no code] -/
def findsOne (path : String) (strict : Bool := false) : Except PyErr (Option PyVal) :=
  match findNodes pathEl strict ⟨[], false⟩ path.toList with
  | .error er => .error er
  | .ok ns => (findSingle strict ns).map fun n => n.map fun n => elemValue ((elemAt pathEl n.pos).getD .absent)

example : finds [] "i1" true = .ok [.int 0] := by decide +kernel
example : finds [] "a1[:]" true = .ok [.int 10, .int 11, .int 12, .int 13, .int 14, .int 15] := by decide +kernel
example : finds [] "a1[0]" true = .ok [.int 10] := by decide +kernel
example : findsOne "i1" = .ok (some (.int 0)) := by decide +kernel
example : findsOne "bogus" = .ok .none := by decide +kernel
example : findsOne "a1[0]" = .ok (some (.int 10)) := by decide +kernel
example : findsOne "a1[10]" = .ok .none := by decide +kernel
example : findsOne "l3[1:][1:]" = .ok (some (.int 6)) := by decide +kernel
example : findsOne "l3[:][:]" = .ok (some (.int 6)) := by decide +kernel
example : findsOne "a1[:]" true = .error .lookup := by decide +kernel

end Flatland.Conf
