import Verif.Conformance.Base
import Verif.Model.Context
import Verif.Spec.Trool
/-! /repo/tests/markup/test_transforms.py (a dict compares equal whatever its order; so do the expectations here) -/
namespace Flatland.Conf
open Flatland

attribute [local instance] Runtime.ascii Spec.asciiCasing

/-- text as attribute value [no code] -/
def t (x : String) : HtmlVal := .text x.toList

/-- attributes [no code] -/
def atts (l : List (String × HtmlVal)) : Attrs := l.map fun x => (x.1.toList, x.2)

/-- the frame of a new Context with changes [no code] -/
def ctxt (l : List (String × HtmlVal)) : OptFrame := l.foldl (fun f x => dictPut f x.1.toList x.2) defaultFrame

/-- `Integer.named('number')(123)` [no code] -/
def number : Bind := ⟨"number".toList, "123".toList, .plain⟩

/-- `Array.named('array').of(Integer)([123])[0]` [no code] -/
def inArray : Bind := ⟨"array".toList, "123".toList, .plain⟩

/-- `Array.of(Integer)([123])[0]` [no code] -/
def anon : Bind := ⟨[], "123".toList, .plain⟩

/-- an Integer [no code] -/
def anInteger (i : Int) : ScalarState := (scalarSet (integerType true 0) .fresh (.int i)).1

/-- `Array.named('array').of(Integer)([123, 456])` [no code] -/
def arrayBind : Bind := ⟨"array".toList, "[u'123', u'456']".toList, .array (integerType true 0) [anInteger 123, anInteger 456]⟩

/-- `Boolean.named('bool')(value)` [no code] -/
def boolBind (b : Bool) : Bind := ⟨"bool".toList, if b then "1".toList else [], .boolean "1".toList⟩

/-- the filters of test_filter [no code] -/
def filter1 : TagFilter := ⟨[], fun _ x => x.put "donut".toList (t "xyzzy")⟩
/-- `return bind.label` [no code] -/
def filter2 : TagFilter := ⟨[], fun _ x => { x with contents := t "number" }⟩

/-- equal as dicts [no code] -/
def sameDict (a b : Attrs) : Bool := a.length == b.length && a.all fun x => dictGet b x.1 == some x.2

/-- `assert_transform` [no code] -/
def transforms (fn : TagState → Except PyErr TagState) (ctx : List (String × HtmlVal)) (given : List (String × HtmlVal)) (contents : HtmlVal)
    (expected : List (String × HtmlVal)) (expectedContents : HtmlVal) : Bool :=
  match fn ⟨atts given, contents, ctxt ctx⟩ with
  | .ok x => sameDict x.attrs (atts expected) && x.contents == expectedContents
  | .error _ => false

/-! TestName -/
example : transforms (transformName "input".toList (some number)) [] [] (.obj 7) [("name", t "number")] (.obj 7) := by decide +kernel
example : transforms (transformName "button".toList (some number)) [] [] (.obj 7) [("name", t "number")] (.obj 7) := by decide +kernel
example : transforms (transformName "select".toList (some number)) [] [] (.obj 7) [("name", t "number")] (.obj 7) := by decide +kernel
example : transforms (transformName "textarea".toList (some number)) [] [] (.obj 7) [("name", t "number")] (.obj 7) := by decide +kernel
example : transforms (transformName "form".toList (some number)) [] [] (.obj 7) [("name", t "number")] (.obj 7) := by decide +kernel
example : transforms (transformName "xyzzy".toList (some number)) [] [] (.obj 7) [] (.obj 7) := by decide +kernel
example : transforms (transformName "xyzzy".toList (some number)) [] [("name", t "existing")] (.obj 7) [("name", t "existing")] (.obj 7) := by decide +kernel
example : transforms (transformName "input".toList (some number)) [] [("name", t "local")] (.obj 7) [("name", t "local")] (.obj 7) := by decide +kernel
example : transforms (transformName "input".toList (some number)) [] [("name", t "local"), ("auto_name", t "on")] (.obj 7) [("name", t "number")] (.obj 7) := by decide +kernel
example : transforms (transformName "input".toList (some number)) [("auto_name", .bool false)] [] (.obj 7) [] (.obj 7) := by decide +kernel
example : transforms (transformName "input".toList (some number)) [("auto_name", .bool true)] [] (.obj 7) [("name", t "number")] (.obj 7) := by decide +kernel
example : transforms (transformName "xyzzy".toList (some number)) [("auto_name", .bool true)] [] (.obj 7) [] (.obj 7) := by decide +kernel
example : transforms (transformName "input".toList (some number)) [("auto_name", t "auto")] [] (.obj 7) [("name", t "number")] (.obj 7) := by decide +kernel
example : transforms (transformName "input".toList (some number)) [] [("auto_name", .bool false)] (.obj 7) [] (.obj 7) := by decide +kernel
example : transforms (transformName "input".toList (some number)) [("auto_name", .bool false)] [("auto_name", .bool true)] (.obj 7) [("name", t "number")] (.obj 7) := by decide +kernel
example : transforms (transformName "input".toList (some number)) [("auto_name", .bool true)] [("auto_name", t "auto")] (.obj 7) [("name", t "number")] (.obj 7) := by decide +kernel
example : transforms (transformName "input".toList (some number)) [("auto_name", .bool false)] [("auto_name", t "auto")] (.obj 7) [] (.obj 7) := by decide +kernel
example : transforms (transformName "input".toList .none) [] [("auto_name", .bool true)] (.obj 7) [] (.obj 7) := by decide +kernel

/-! TestTextboxValue -/
example : transforms (transformValue "button".toList (some number)) [] [] (.obj 7) [("value", t "123")] (.obj 7) := by decide +kernel
example : transforms (transformValue "input".toList (some number)) [] [] (.obj 7) [("value", t "123")] (.obj 7) := by decide +kernel
example : transforms (transformValue "xyzzy".toList (some number)) [] [] (.obj 7) [] (.obj 7) := by decide +kernel
example : transforms (transformValue "xyzzy".toList (some number)) [] [("value", t "existing")] (.obj 7) [("value", t "existing")] (.obj 7) := by decide +kernel
example : transforms (transformValue "input".toList (some number)) [] [("value", t "local")] (.obj 7) [("value", t "local")] (.obj 7) := by decide +kernel
example : transforms (transformValue "input".toList (some number)) [] [("value", t "local"), ("auto_value", t "on")] (.obj 7) [("value", t "123")] (.obj 7) := by decide +kernel
example : transforms (transformValue "input".toList (some number)) [("auto_value", .bool false)] [] (.obj 7) [] (.obj 7) := by decide +kernel
example : transforms (transformValue "input".toList (some number)) [("auto_value", .bool true)] [] (.obj 7) [("value", t "123")] (.obj 7) := by decide +kernel
example : transforms (transformValue "xyzzy".toList (some number)) [("auto_value", .bool true)] [] (.obj 7) [] (.obj 7) := by decide +kernel
example : transforms (transformValue "input".toList (some number)) [("auto_value", t "auto")] [] (.obj 7) [("value", t "123")] (.obj 7) := by decide +kernel
example : transforms (transformValue "input".toList (some number)) [] [("auto_value", .bool false)] (.obj 7) [] (.obj 7) := by decide +kernel
example : transforms (transformValue "input".toList (some number)) [("auto_value", .bool false)] [("auto_value", .bool true)] (.obj 7) [("value", t "123")] (.obj 7) := by decide +kernel
example : transforms (transformValue "input".toList (some number)) [("auto_value", .bool true)] [("auto_value", t "auto")] (.obj 7) [("value", t "123")] (.obj 7) := by decide +kernel
example : transforms (transformValue "input".toList (some number)) [("auto_value", .bool false)] [("auto_value", t "auto")] (.obj 7) [] (.obj 7) := by decide +kernel
example : transforms (transformValue "input".toList .none) [] [("auto_value", .bool true)] (.obj 7) [] (.obj 7) := by decide +kernel

/-! TestButtonValue -/
example : transforms (transformValue "button".toList (some number)) [] [] (.obj 7) [("value", t "123")] (.obj 7) := by decide +kernel
example : transforms (transformValue "input".toList (some number)) [] [] (.obj 7) [("value", t "123")] (.obj 7) := by decide +kernel
example : transforms (transformValue "xyzzy".toList (some number)) [] [] (.obj 7) [] (.obj 7) := by decide +kernel
example : transforms (transformValue "xyzzy".toList (some number)) [] [("value", t "existing")] (.obj 7) [("value", t "existing")] (.obj 7) := by decide +kernel
example : transforms (transformValue "button".toList (some number)) [] [("value", t "local")] (.obj 7) [("value", t "local")] (.obj 7) := by decide +kernel
example : transforms (transformValue "button".toList (some number)) [] [("value", t "local"), ("auto_value", t "on")] (.obj 7) [("value", t "123")] (.obj 7) := by decide +kernel
example : transforms (transformValue "button".toList (some number)) [("auto_value", .bool false)] [] (.obj 7) [] (.obj 7) := by decide +kernel
example : transforms (transformValue "button".toList (some number)) [("auto_value", .bool true)] [] (.obj 7) [("value", t "123")] (.obj 7) := by decide +kernel
example : transforms (transformValue "xyzzy".toList (some number)) [("auto_value", .bool true)] [] (.obj 7) [] (.obj 7) := by decide +kernel
example : transforms (transformValue "button".toList (some number)) [("auto_value", t "auto")] [] (.obj 7) [("value", t "123")] (.obj 7) := by decide +kernel
example : transforms (transformValue "button".toList (some number)) [] [("auto_value", .bool false)] (.obj 7) [] (.obj 7) := by decide +kernel
example : transforms (transformValue "button".toList (some number)) [("auto_value", .bool false)] [("auto_value", .bool true)] (.obj 7) [("value", t "123")] (.obj 7) := by decide +kernel
example : transforms (transformValue "button".toList (some number)) [("auto_value", .bool true)] [("auto_value", t "auto")] (.obj 7) [("value", t "123")] (.obj 7) := by decide +kernel
example : transforms (transformValue "button".toList (some number)) [("auto_value", .bool false)] [("auto_value", t "auto")] (.obj 7) [] (.obj 7) := by decide +kernel
example : transforms (transformValue "button".toList .none) [] [("auto_value", .bool true)] (.obj 7) [] (.obj 7) := by decide +kernel

/-! TestDomID -/
example : transforms (transformDomid "input".toList (some number)) [] [] (.obj 7) [] (.obj 7) := by decide +kernel
example : transforms (transformDomid "button".toList (some number)) [] [] (.obj 7) [] (.obj 7) := by decide +kernel
example : transforms (transformDomid "select".toList (some number)) [] [] (.obj 7) [] (.obj 7) := by decide +kernel
example : transforms (transformDomid "textarea".toList (some number)) [] [] (.obj 7) [] (.obj 7) := by decide +kernel
example : transforms (transformDomid "xyzzy".toList (some number)) [] [] (.obj 7) [] (.obj 7) := by decide +kernel
example : transforms (transformDomid "xyzzy".toList (some number)) [] [("id", t "existing")] (.obj 7) [("id", t "existing")] (.obj 7) := by decide +kernel
example : transforms (transformDomid "input".toList (some number)) [] [("id", t "local")] (.obj 7) [("id", t "local")] (.obj 7) := by decide +kernel
example : transforms (transformDomid "input".toList (some number)) [] [("id", t "local"), ("auto_domid", t "on")] (.obj 7) [("id", t "f_number")] (.obj 7) := by decide +kernel
example : transforms (transformDomid "input".toList (some number)) [("auto_domid", .bool false)] [] (.obj 7) [] (.obj 7) := by decide +kernel
example : transforms (transformDomid "input".toList (some number)) [("auto_domid", .bool true)] [] (.obj 7) [("id", t "f_number")] (.obj 7) := by decide +kernel
example : transforms (transformDomid "xyzzy".toList (some number)) [("auto_domid", .bool true)] [] (.obj 7) [] (.obj 7) := by decide +kernel
example : transforms (transformDomid "input".toList (some number)) [("auto_domid", t "auto")] [] (.obj 7) [] (.obj 7) := by decide +kernel
example : transforms (transformDomid "input".toList (some number)) [] [("auto_domid", .bool false)] (.obj 7) [] (.obj 7) := by decide +kernel
example : transforms (transformDomid "input".toList (some number)) [("auto_domid", .bool false)] [("auto_domid", .bool true)] (.obj 7) [("id", t "f_number")] (.obj 7) := by decide +kernel
example : transforms (transformDomid "input".toList (some number)) [("auto_domid", .bool true)] [("auto_domid", t "auto")] (.obj 7) [("id", t "f_number")] (.obj 7) := by decide +kernel
example : transforms (transformDomid "input".toList (some number)) [("auto_domid", .bool false)] [("auto_domid", t "auto")] (.obj 7) [] (.obj 7) := by decide +kernel
example : transforms (transformDomid "input".toList .none) [] [("auto_domid", .bool true)] (.obj 7) [] (.obj 7) := by decide +kernel

/-! TestFor -/
example : transforms (transformFor "label".toList (some number)) [] [] (.obj 7) [] (.obj 7) := by decide +kernel
example : transforms (transformFor "xyzzy".toList (some number)) [] [] (.obj 7) [] (.obj 7) := by decide +kernel
example : transforms (transformFor "xyzzy".toList (some number)) [] [("for", t "existing")] (.obj 7) [("for", t "existing")] (.obj 7) := by decide +kernel
example : transforms (transformFor "label".toList (some number)) [] [("for", t "local")] (.obj 7) [("for", t "local")] (.obj 7) := by decide +kernel
example : transforms (transformFor "label".toList (some number)) [] [("for", t "local"), ("auto_for", t "on")] (.obj 7) [("for", t "f_number")] (.obj 7) := by decide +kernel
example : transforms (transformFor "label".toList (some number)) [("auto_for", .bool false)] [] (.obj 7) [] (.obj 7) := by decide +kernel
example : transforms (transformFor "label".toList (some number)) [("auto_for", .bool true)] [] (.obj 7) [("for", t "f_number")] (.obj 7) := by decide +kernel
example : transforms (transformFor "xyzzy".toList (some number)) [("auto_for", .bool true)] [] (.obj 7) [] (.obj 7) := by decide +kernel
example : transforms (transformFor "label".toList (some number)) [("auto_for", t "auto")] [] (.obj 7) [] (.obj 7) := by decide +kernel
example : transforms (transformFor "label".toList (some number)) [] [("auto_for", .bool false)] (.obj 7) [] (.obj 7) := by decide +kernel
example : transforms (transformFor "label".toList (some number)) [("auto_for", .bool false)] [("auto_for", .bool true)] (.obj 7) [("for", t "f_number")] (.obj 7) := by decide +kernel
example : transforms (transformFor "label".toList (some number)) [("auto_for", .bool true)] [("auto_for", t "auto")] (.obj 7) [("for", t "f_number")] (.obj 7) := by decide +kernel
example : transforms (transformFor "label".toList (some number)) [("auto_for", .bool false)] [("auto_for", t "auto")] (.obj 7) [] (.obj 7) := by decide +kernel
example : transforms (transformFor "label".toList .none) [] [("auto_for", .bool true)] (.obj 7) [] (.obj 7) := by decide +kernel

/-! TestTabindex -/
example : transforms (transformTabindex "input".toList) [("tabindex", .int (5))] [] (.obj 7) [] (.obj 7) := by decide +kernel
example : transforms (transformTabindex "button".toList) [("tabindex", .int (5))] [] (.obj 7) [] (.obj 7) := by decide +kernel
example : transforms (transformTabindex "select".toList) [("tabindex", .int (5))] [] (.obj 7) [] (.obj 7) := by decide +kernel
example : transforms (transformTabindex "textarea".toList) [("tabindex", .int (5))] [] (.obj 7) [] (.obj 7) := by decide +kernel
example : transforms (transformTabindex "xyzzy".toList) [("tabindex", .int (5))] [] (.obj 7) [] (.obj 7) := by decide +kernel
example : transforms (transformTabindex "xyzzy".toList) [("tabindex", .int (5))] [("tabindex", t "existing")] (.obj 7) [("tabindex", t "existing")] (.obj 7) := by decide +kernel
example : transforms (transformTabindex "input".toList) [("tabindex", .int (5))] [("tabindex", t "local")] (.obj 7) [("tabindex", t "local")] (.obj 7) := by decide +kernel
example : transforms (transformTabindex "input".toList) [("tabindex", .int (5))] [("tabindex", t "local"), ("auto_tabindex", t "on")] (.obj 7) [("tabindex", t "5")] (.obj 7) := by decide +kernel
example : transforms (transformTabindex "input".toList) [("tabindex", .int (5)), ("auto_tabindex", .bool false)] [] (.obj 7) [] (.obj 7) := by decide +kernel
example : transforms (transformTabindex "input".toList) [("tabindex", .int (5)), ("auto_tabindex", .bool true)] [] (.obj 7) [("tabindex", t "5")] (.obj 7) := by decide +kernel
example : transforms (transformTabindex "xyzzy".toList) [("tabindex", .int (5)), ("auto_tabindex", .bool true)] [] (.obj 7) [] (.obj 7) := by decide +kernel
example : transforms (transformTabindex "input".toList) [("tabindex", .int (5)), ("auto_tabindex", t "auto")] [] (.obj 7) [] (.obj 7) := by decide +kernel
example : transforms (transformTabindex "input".toList) [("tabindex", .int (5))] [("auto_tabindex", .bool false)] (.obj 7) [] (.obj 7) := by decide +kernel
example : transforms (transformTabindex "input".toList) [("tabindex", .int (5)), ("auto_tabindex", .bool false)] [("auto_tabindex", .bool true)] (.obj 7) [("tabindex", t "5")] (.obj 7) := by decide +kernel
example : transforms (transformTabindex "input".toList) [("tabindex", .int (5)), ("auto_tabindex", .bool true)] [("auto_tabindex", t "auto")] (.obj 7) [("tabindex", t "5")] (.obj 7) := by decide +kernel
example : transforms (transformTabindex "input".toList) [("tabindex", .int (5)), ("auto_tabindex", .bool false)] [("auto_tabindex", t "auto")] (.obj 7) [] (.obj 7) := by decide +kernel
example : transforms (transformTabindex "input".toList) [("tabindex", .int (5))] [("auto_tabindex", .bool true)] (.obj 7) [("tabindex", t "5")] (.obj 7) := by decide +kernel

/-! test_name_anonymous_bind -/
example : transforms (transformName "input".toList (some inArray)) [] [] (.obj 7) [("name", t "array")] (.obj 7) := by decide +kernel
example : transforms (transformName "input".toList (some anon)) [] [] (.obj 7) [] (.obj 7) := by decide +kernel

/-! test_contents_textarea -/
example : transforms (transformValue "textarea".toList (some number)) [] [] (.none) [] (.markup "123".toList) := by decide +kernel
example : transforms (transformValue "textarea".toList (some number)) [] [] (.text "existing_value".toList) [] (.text "existing_value".toList) := by decide +kernel
example : transforms (transformValue "textarea".toList (some number)) [] [] (.text []) [] (.text []) := by decide +kernel
example : transforms (transformValue "textarea".toList (some number)) [] [] (.markup "xyzzy".toList) [] (.markup "xyzzy".toList) := by decide +kernel

/-! test_value_checkable -/
example : transforms (transformValue "input".toList (some number)) [] [("type", t "checkbox"), ("value", t "123")] (.obj 7) [("type", t "checkbox"), ("value", t "123"), ("checked", t "checked")] (.obj 7) := by decide +kernel
example : transforms (transformValue "input".toList (some number)) [] [("type", t "checkbox"), ("value", t "999")] (.obj 7) [("type", t "checkbox"), ("value", t "999")] (.obj 7) := by decide +kernel
example : transforms (transformValue "input".toList (some number)) [] [("type", t "checkbox"), ("value", t "999"), ("checked", t "checked")] (.obj 7) [("type", t "checkbox"), ("value", t "999")] (.obj 7) := by decide +kernel
example : transforms (transformValue "input".toList (some number)) [] [("type", t "checkbox"), ("value", t "999"), ("checked", t "")] (.obj 7) [("type", t "checkbox"), ("value", t "999")] (.obj 7) := by decide +kernel
example : transforms (transformValue "input".toList (some number)) [] [("type", t "radio"), ("value", t "123")] (.obj 7) [("type", t "radio"), ("value", t "123"), ("checked", t "checked")] (.obj 7) := by decide +kernel
example : transforms (transformValue "input".toList (some number)) [] [("type", t "radio"), ("value", t "999")] (.obj 7) [("type", t "radio"), ("value", t "999")] (.obj 7) := by decide +kernel
example : transforms (transformValue "input".toList (some number)) [] [("type", t "radio"), ("value", t "999"), ("checked", t "checked")] (.obj 7) [("type", t "radio"), ("value", t "999")] (.obj 7) := by decide +kernel
example : transforms (transformValue "input".toList (some number)) [] [("type", t "radio"), ("value", t "999"), ("checked", t "")] (.obj 7) [("type", t "radio"), ("value", t "999")] (.obj 7) := by decide +kernel
example : transforms (transformValue "input".toList (some arrayBind)) [] [("type", t "checkbox"), ("value", t "123")] (.obj 7) [("type", t "checkbox"), ("value", t "123"), ("checked", t "checked")] (.obj 7) := by decide +kernel
example : transforms (transformValue "input".toList (some arrayBind)) [] [("type", t "checkbox"), ("value", t "999")] (.obj 7) [("type", t "checkbox"), ("value", t "999")] (.obj 7) := by decide +kernel
example : transforms (transformValue "input".toList (some arrayBind)) [] [("type", t "checkbox"), ("value", t "999"), ("checked", t "checked")] (.obj 7) [("type", t "checkbox"), ("value", t "999")] (.obj 7) := by decide +kernel
example : transforms (transformValue "input".toList (some arrayBind)) [] [("type", t "checkbox"), ("value", t "999"), ("checked", t "")] (.obj 7) [("type", t "checkbox"), ("value", t "999")] (.obj 7) := by decide +kernel
example : transforms (transformValue "input".toList (some arrayBind)) [] [("type", t "radio"), ("value", t "123")] (.obj 7) [("type", t "radio"), ("value", t "123"), ("checked", t "checked")] (.obj 7) := by decide +kernel
example : transforms (transformValue "input".toList (some arrayBind)) [] [("type", t "radio"), ("value", t "999")] (.obj 7) [("type", t "radio"), ("value", t "999")] (.obj 7) := by decide +kernel
example : transforms (transformValue "input".toList (some arrayBind)) [] [("type", t "radio"), ("value", t "999"), ("checked", t "checked")] (.obj 7) [("type", t "radio"), ("value", t "999")] (.obj 7) := by decide +kernel
example : transforms (transformValue "input".toList (some arrayBind)) [] [("type", t "radio"), ("value", t "999"), ("checked", t "")] (.obj 7) [("type", t "radio"), ("value", t "999")] (.obj 7) := by decide +kernel

/-! test_value_checkbox_boolean -/
example : transforms (transformValue "input".toList (some (boolBind true))) [] [("type", t "checkbox")] (.obj 7) [("type", t "checkbox"), ("value", t "1"), ("checked", t "checked")] (.obj 7) := by decide +kernel
example : transforms (transformValue "input".toList (some (boolBind false))) [] [("type", t "checkbox")] (.obj 7) [("type", t "checkbox"), ("value", t "1")] (.obj 7) := by decide +kernel
example : transforms (transformValue "input".toList (some (boolBind true))) [] [("type", t "checkbox"), ("value", t "2")] (.obj 7) [("type", t "checkbox"), ("value", t "2")] (.obj 7) := by decide +kernel

/-! test_value_omitted -/
example : transforms (transformValue "input".toList (some number)) [] [("type", t "password")] (.obj 7) [("type", t "password")] (.obj 7) := by decide +kernel
example : transforms (transformValue "input".toList (some number)) [] [("type", t "password"), ("value", t "999")] (.obj 7) [("type", t "password"), ("value", t "999")] (.obj 7) := by decide +kernel
example : transforms (transformValue "input".toList (some number)) [] [("type", t "password"), ("auto_value", .bool true)] (.obj 7) [("type", t "password"), ("value", t "123")] (.obj 7) := by decide +kernel
example : transforms (transformValue "input".toList (some number)) [] [("type", t "password"), ("auto_value", .bool true), ("value", t "999")] (.obj 7) [("type", t "password"), ("value", t "123")] (.obj 7) := by decide +kernel
example : transforms (transformValue "input".toList (some number)) [] [("type", t "file")] (.obj 7) [("type", t "file")] (.obj 7) := by decide +kernel
example : transforms (transformValue "input".toList (some number)) [] [("type", t "file"), ("value", t "999")] (.obj 7) [("type", t "file"), ("value", t "999")] (.obj 7) := by decide +kernel
example : transforms (transformValue "input".toList (some number)) [] [("type", t "file"), ("auto_value", .bool true)] (.obj 7) [("type", t "file"), ("value", t "123")] (.obj 7) := by decide +kernel
example : transforms (transformValue "input".toList (some number)) [] [("type", t "file"), ("auto_value", .bool true), ("value", t "999")] (.obj 7) [("type", t "file"), ("value", t "123")] (.obj 7) := by decide +kernel
example : transforms (transformValue "input".toList (some number)) [] [("type", t "image")] (.obj 7) [("type", t "image")] (.obj 7) := by decide +kernel
example : transforms (transformValue "input".toList (some number)) [] [("type", t "image"), ("value", t "999")] (.obj 7) [("type", t "image"), ("value", t "999")] (.obj 7) := by decide +kernel
example : transforms (transformValue "input".toList (some number)) [] [("type", t "image"), ("auto_value", .bool true)] (.obj 7) [("type", t "image"), ("value", t "123")] (.obj 7) := by decide +kernel
example : transforms (transformValue "input".toList (some number)) [] [("type", t "image"), ("auto_value", .bool true), ("value", t "999")] (.obj 7) [("type", t "image"), ("value", t "123")] (.obj 7) := by decide +kernel

/-! test_value_option -/
example : transforms (transformValue "option".toList (some number)) [] [("value", t "123")] (.obj 7) [("value", t "123"), ("selected", t "selected")] (.obj 7) := by decide +kernel
example : transforms (transformValue "option".toList (some number)) [] [("value", t "999")] (.obj 7) [("value", t "999")] (.obj 7) := by decide +kernel
example : transforms (transformValue "option".toList (some number)) [] [] (.text "123".toList) [("selected", t "selected")] (.text "123".toList) := by decide +kernel
example : transforms (transformValue "option".toList (some number)) [] [] (.text "    123     ".toList) [("selected", t "selected")] (.text "    123     ".toList) := by decide +kernel
example : transforms (transformValue "option".toList (some number)) [] [] (.text "999".toList) [] (.text "999".toList) := by decide +kernel
example : transforms (transformValue "option".toList (some number)) [] [] (.none) [] (.none) := by decide +kernel
example : transforms (transformValue "option".toList (some number)) [] [] (.obj 7) [] (.obj 7) := by decide +kernel
example : transforms (transformValue "option".toList (some number)) [] [("value", t "999")] (.text "123".toList) [("value", t "999")] (.text "123".toList) := by decide +kernel
example : transforms (transformValue "option".toList (some number)) [] [("value", t "999"), ("selected", t "selected")] (.obj 7) [("value", t "999")] (.obj 7) := by decide +kernel
example : transforms (transformValue "option".toList (some number)) [] [("value", t "999"), ("selected", t "")] (.obj 7) [("value", t "999")] (.obj 7) := by decide +kernel
example : transforms (transformValue "option".toList (some arrayBind)) [] [("value", t "123")] (.obj 7) [("value", t "123"), ("selected", t "selected")] (.obj 7) := by decide +kernel
example : transforms (transformValue "option".toList (some arrayBind)) [] [("value", t "999")] (.obj 7) [("value", t "999")] (.obj 7) := by decide +kernel
example : transforms (transformValue "option".toList (some arrayBind)) [] [] (.text "123".toList) [("selected", t "selected")] (.text "123".toList) := by decide +kernel
example : transforms (transformValue "option".toList (some arrayBind)) [] [] (.text "    123     ".toList) [("selected", t "selected")] (.text "    123     ".toList) := by decide +kernel
example : transforms (transformValue "option".toList (some arrayBind)) [] [] (.text "999".toList) [] (.text "999".toList) := by decide +kernel
example : transforms (transformValue "option".toList (some arrayBind)) [] [] (.none) [] (.none) := by decide +kernel
example : transforms (transformValue "option".toList (some arrayBind)) [] [] (.obj 7) [] (.obj 7) := by decide +kernel
example : transforms (transformValue "option".toList (some arrayBind)) [] [("value", t "999")] (.text "123".toList) [("value", t "999")] (.text "123".toList) := by decide +kernel
example : transforms (transformValue "option".toList (some arrayBind)) [] [("value", t "999"), ("selected", t "selected")] (.obj 7) [("value", t "999")] (.obj 7) := by decide +kernel
example : transforms (transformValue "option".toList (some arrayBind)) [] [("value", t "999"), ("selected", t "")] (.obj 7) [("value", t "999")] (.obj 7) := by decide +kernel

/-! test_domid_checkable_array, test_domid_checkable_scalar, test_domid_anonymous_bind, test_domid_unbound_naming, test_domid_custom_formatting -/
example : transforms (transformDomid "input".toList (some arrayBind)) [("auto_domid", .bool true)] [("type", t "radio"), ("value", t "xxx")] (.obj 7) [("type", t "radio"), ("value", t "xxx"), ("id", t "f_array_xxx")] (.obj 7) := by decide +kernel
example : transforms (transformDomid "input".toList (some arrayBind)) [("auto_domid", .bool true)] [("type", t "radio"), ("value", t "Ḑộộḏ!")] (.obj 7) [("type", t "radio"), ("value", t "Ḑộộḏ!"), ("id", t "f_array")] (.obj 7) := by decide +kernel
example : transforms (transformDomid "input".toList (some arrayBind)) [("auto_domid", .bool true)] [("type", t "radio"), ("value", t "Ḑộộḏ! yo")] (.obj 7) [("type", t "radio"), ("value", t "Ḑộộḏ! yo"), ("id", t "f_array_yo")] (.obj 7) := by decide +kernel
example : transforms (transformDomid "input".toList (some arrayBind)) [("auto_domid", .bool true)] [("type", t "radio")] (.obj 7) [("type", t "radio"), ("id", t "f_array")] (.obj 7) := by decide +kernel
example : transforms (transformDomid "input".toList (some number)) [("auto_domid", .bool true)] [("type", t "radio"), ("value", t "xxx")] (.obj 7) [("type", t "radio"), ("value", t "xxx"), ("id", t "f_number_xxx")] (.obj 7) := by decide +kernel
example : transforms (transformDomid "input".toList (some inArray)) [] [("auto_domid", .bool true)] (.obj 7) [("id", t "f_array")] (.obj 7) := by decide +kernel
example : transforms (transformDomid "input".toList (some anon)) [] [("auto_domid", .bool true)] (.obj 7) [] (.obj 7) := by decide +kernel
example : transforms (transformDomid "input".toList .none) [] [("name", t "unbound"), ("auto_domid", t "on")] (.obj 7) [("name", t "unbound"), ("id", t "f_unbound")] (.obj 7) := by decide +kernel
example : transforms (transformDomid "input".toList (some number)) [("domid_format", t "--%s--")] [("auto_domid", t "on")] (.obj 7) [("id", t "--number--")] (.obj 7) := by decide +kernel

/-! test_for_anonymous_bind -/
example : transforms (transformFor "label".toList (some inArray)) [] [("auto_for", .bool true)] (.obj 7) [("for", t "f_array")] (.obj 7) := by decide +kernel
example : transforms (transformFor "label".toList (some anon)) [] [("auto_for", .bool true)] (.obj 7) [] (.obj 7) := by decide +kernel

/-! test_tabindex_stop_numbers, test_tabindex_zero, test_tabindex_increment -/
example : transforms (transformTabindex "input".toList) [("tabindex", .int (-1))] [("auto_tabindex", t "on")] (.obj 7) [("tabindex", t "-1")] (.obj 7) := by decide +kernel
example : transforms (transformTabindex "input".toList) [("tabindex", .int (-2))] [("auto_tabindex", t "on")] (.obj 7) [("tabindex", t "-2")] (.obj 7) := by decide +kernel
example : transforms (transformTabindex "input".toList) [("auto_tabindex", .bool true), ("tabindex", .int (0))] [] (.obj 7) [] (.obj 7) := by decide +kernel
example : transforms (transformTabindex "input".toList) [("auto_tabindex", .bool true), ("tabindex", .int (1))] [] (.obj 7) [("tabindex", t "1")] (.obj 7) := by decide +kernel
example : (transformTabindex "input".toList ⟨[], .none, ctxt [("auto_tabindex", .bool true), ("tabindex", .int 1)]⟩).toOption.bind (fun x => dictGet x.frame kTabindex) = some (.int 2) := by decide +kernel
example : (transformTabindex "input".toList ⟨[], .none, ctxt [("auto_tabindex", .bool true), ("tabindex", .int (-1))]⟩).toOption.bind (fun x => dictGet x.frame kTabindex) = some (.int (-1)) := by decide +kernel

/-! test_filter, test_filter_want -/
example : transforms (transformFilters [filter1] "div".toList) [("auto_filter", .bool true)] [] (.obj 7) [("donut", t "xyzzy")] (.obj 7) := by decide +kernel
example : transforms (transformFilters [filter2, filter1] "div".toList) [("auto_filter", .bool true)] [] (t "bbq") [("donut", t "xyzzy")] (t "number") := by decide +kernel
example : transforms (transformFilters [] "div".toList) [("auto_filter", .bool true)] [] (t "bbq") [] (t "bbq") := by decide +kernel
example : transforms (transformFilters [{ filter1 with tags := ["div".toList, "input".toList] }] "div".toList) [("auto_filter", .bool true)] [] (.obj 7) [("donut", t "xyzzy")] (.obj 7) := by decide +kernel
example : transforms (transformFilters [{ filter1 with tags := ["div".toList, "input".toList] }] "input".toList) [("auto_filter", .bool true)] [] (.obj 7) [("donut", t "xyzzy")] (.obj 7) := by decide +kernel
example : transforms (transformFilters [{ filter1 with tags := ["div".toList, "input".toList] }] "horse".toList) [("auto_filter", .bool true)] [] (.obj 7) [] (.obj 7) := by decide +kernel

end Flatland.Conf
