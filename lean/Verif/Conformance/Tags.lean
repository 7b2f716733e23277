import Verif.Conformance.Transforms
import Verif.Model.TagStack
import Verif.Model.Genshi
/-! /repo/tests/markup/test_tag_forcing.py, test_tag_pairing.py, test_tag_rendering.py, test_generator.py, test_context.py,
test_tag_context.py, test_genshi.py.  (Some of the Generator tests are skipped by the project's fixtures; their expectations are used all the
same.) -/
namespace Flatland.Conf
open Flatland

attribute [local instance] Runtime.ascii Spec.asciiCasing

/-- the frame of a generator, with settings made by `set` [out/markup.py:34-38, 62-78] -/
def genFrame (settings : List (String × HtmlVal)) : OptFrame := ((Ctx.generator []).1.set (atts settings)).1.top

/-- `String.named(n)(u)` [no code] -/
def stringBind (n u : String) : Bind := ⟨n.toList, u.toList, .plain⟩

/-- `gen.tag(name, el, **kw)` [no code] -/
def tagOut (xml : Bool) (name : String) (b : Option Bind) (kw : List (String × HtmlVal)) (settings : List (String × HtmlVal) := []) : Except PyErr String :=
  (tagMethod xml name.toList b (atts kw) (genFrame settings)).2.map String.ofList

/-- `gen.name(el, **kw)` [no code] -/
def propOut (xml : Bool) (name : String) (b : Option Bind) (kw : List (String × HtmlVal)) (settings : List (String × HtmlVal) := []) : Except PyErr String :=
  match tagProperties.find? (·.1 == name.toList) with
  | some p => (propertyCall xml p b (atts kw) (genFrame settings)).2.map String.ofList
  | .none => .error .attribute

/-- the element of test_tag_forcing.py [no code] -/
def element : Bind := stringBind "element" "val"

/-! ### test_tag_forcing.py -/
example : tagOut false "div" (some element) [("auto_value", .bool true)] = .ok "<div value=\"val\"></div>" := by decide +kernel
example : tagOut false "div" .none [("auto_value", .bool true)] = .ok "<div></div>" := by decide +kernel
example : tagOut false "div" (some element) [("auto_name", .bool true)] = .ok "<div name=\"element\"></div>" := by decide +kernel
example : tagOut false "div" .none [("auto_name", .bool true)] = .ok "<div></div>" := by decide +kernel
example : tagOut false "div" (some element) [("auto_domid", .bool true)] = .ok "<div id=\"f_element\"></div>" := by decide +kernel
example : tagOut false "div" .none [("auto_domid", .bool true)] = .ok "<div></div>" := by decide +kernel
example : tagOut false "div" (some element) [("auto_for", .bool true)] = .ok "<div for=\"f_element\"></div>" := by decide +kernel
example : tagOut false "div" .none [("auto_for", .bool true)] = .ok "<div></div>" := by decide +kernel
example : tagOut false "div" (some element) [("auto_tabindex", .bool true)] [("tabindex", .int 1)] = .ok "<div tabindex=\"1\"></div>" := by decide +kernel
example : tagOut false "div" .none [("auto_tabindex", .bool true)] [("tabindex", .int 1)] = .ok "<div tabindex=\"1\"></div>" := by decide +kernel
example : tagOut false "div" .none [("auto_tabindex", .bool true), ("auto_domid", .bool true)] [("tabindex", .int 1)] = .ok "<div tabindex=\"1\"></div>" := by
  decide +kernel

/-! ### test_tag_pairing.py -/
example : propOut false "input" (some (stringBind "valued" "val")) [] = .ok "<input name=\"valued\" value=\"val\">" := by decide +kernel
example : propOut true "input" (some (stringBind "valued" "val")) [] = .ok "<input name=\"valued\" value=\"val\" />" := by decide +kernel
example : propOut true "textarea" (some (stringBind "valued" "val")) [] = .ok "<textarea name=\"valued\">val</textarea>" := by decide +kernel
example : propOut true "textarea" (some (stringBind "empty" "")) [] = .ok "<textarea name=\"empty\"></textarea>" := by decide +kernel
example : propOut true "textarea" (some (stringBind "valued" "val")) [("contents", t "override")] = .ok "<textarea name=\"valued\">override</textarea>" := by
  decide +kernel
example : propOut false "label" (some (stringBind "valued" "val")) [] = .ok "<label></label>" := by decide +kernel

/-! ### test_generator.py -/

/-- the element of test_generator.py [no code] -/
def field1 : Bind := stringBind "field1" "val"
example : propOut false "input" (some field1) [("type", t "text")] = .ok "<input type=\"text\" name=\"field1\" value=\"val\">" := by decide +kernel
example : propOut true "input" (some field1) [("type", t "text")] = .ok "<input type=\"text\" name=\"field1\" value=\"val\" />" := by decide +kernel

/-- `gen.textarea` and something with it [no code] -/
def areaOf (g : TagGen) : Nat × TagGen := g.getTag "textarea".toList false true

/-- `tag.open(el, **kw)` [no code] -/
def openArea (g : TagGen) (b : Bind) (kw : List (String × HtmlVal)) : TagGen × Except PyErr PStr :=
  g.withTag "textarea".toList false true (fun g i o => g.openTag i o (some b) (atts kw)) (g, .error .index)

/-- `gen.textarea.contents` [no code] -/
def areaContents (g : TagGen) : Option String := g.withTag "textarea".toList false true (fun _ _ o => o.contents.map String.ofList) .none

/-- `tag.close()` [no code] -/
def closeArea (g : TagGen) (i : Nat) : TagGen := match g.objs[i]? with | some o => (g.closeTag i o).1 | .none => g

/-- a generator with xml markup [no code] -/
def xmlGen : TagGen := newGen true (genFrame [])

/-! test_detached_reuse -/
example : areaContents (openArea xmlGen field1 []).1 = some "val" ∧
  areaContents (openArea (openArea xmlGen field1 []).1 field1 []).1 = some "val" ∧
  (openArea xmlGen field1 []).2 = (openArea (openArea xmlGen field1 []).1 field1 []).2 ∧
  (areaOf (openArea (openArea xmlGen field1 []).1 field1 []).1).1 = 0 ∧
  (areaOf (closeArea (openArea (openArea xmlGen field1 []).1 field1 []).1 0)).1 ≠ 0 ∧
  areaContents (closeArea (openArea (openArea xmlGen field1 []).1 field1 []).1 0) = .none := by decide +kernel

/-! test_input_close, test_textarea_escaped, test_textarea_contents, test_textarea_escaped_contents, test_textarea_explicit_contents, test -/
example : xmlGen.withTag "input".toList true false (fun g i o => String.ofList (g.closeTag i o).2) "" = "</input>" := by decide +kernel
example : propOut true "textarea" (some (stringBind "field1" "\"<quoted & escaped>\"")) [] =
  .ok "<textarea name=\"field1\">\"&lt;quoted &amp; escaped&gt;\"</textarea>" := by decide +kernel
example : areaContents (openArea xmlGen (stringBind "field1" "\"<quoted & escaped>\"") []).1 = some "\"&lt;quoted &amp; escaped&gt;\"" := by decide +kernel
example : areaContents (openArea xmlGen field1 [("contents", t "xyzzy")]).1 = some "xyzzy" := by decide +kernel
example : propOut true "label" .none [("contents", .markup "<x>".toList)] = .ok "<label><x></label>" := by decide +kernel

/-! ### test_tag_rendering.py -/

/-- the select of the test as a template [no code] -/
def selectOf (b : Bind) (kw : List (String × HtmlVal)) (options : List (List (String × HtmlVal))) : Template :=
  .block "select".toList false true (some b) (atts kw)
    (options.flatMap fun o => [.text "\n".toList, .tag "option".toList false true (some b) (atts o)])

/-- what a template gives [no code] -/
def rendered (xml : Bool) (x : Template) : Except PyErr String := (renderTemplate (newGen xml (genFrame [])) x).2.map String.ofList

/-! The tests want `value="abc" selected="selected"`; a Generator sorts `value` first, so this is their order too. -/
example : rendered true (selectOf (stringBind "scalar" "abc") []
    [[("value", t "abc")], [("value", t "def"), ("contents", t "DEF")], [("contents", t "abc")], [("value", t "abc"), ("contents", t "abc")]]) =
  .ok ("<select name=\"scalar\">\n<option value=\"abc\" selected=\"selected\"></option>\n<option value=\"def\">DEF</option>\n" ++
    "<option selected=\"selected\">abc</option>\n<option value=\"abc\" selected=\"selected\">abc</option></select>") := by decide +kernel

/-- `Array.named(u'multi').of(String)([u'abc', u'xyz'])` [no code] -/
def multi : Bind := ⟨"multi".toList, "[u'abc', u'xyz']".toList,
  .array (stringType true) ([s "abc", s "xyz"].map fun v => (scalarSet (stringType true) .fresh v).1)⟩
example : rendered true (selectOf multi [("multiple", t "multiple")]
    [[("value", t "abc")], [("value", t "def"), ("contents", t "DEF")], [("contents", t "xyz")]]) =
  .ok ("<select name=\"multi\" multiple=\"multiple\">\n<option value=\"abc\" selected=\"selected\"></option>\n<option value=\"def\">DEF</option>\n" ++
    "<option selected=\"selected\">xyz</option></select>") := by decide +kernel

/-! ### test_context.py -/

/-- a new Context [out/generic.py:28-32] -/
def newCtx : Ctx := ⟨defaultFrame, []⟩

/-- an option every context has [no code] -/
def known : PStr := kAutoName
/-- another one [no code] -/
def known2 : PStr := kAutoValue

/-! test_read_write_known, test_read_write_unknown -/
example : newCtx.contains known = true ∧ newCtx.getItem known ≠ .ok (.obj 7) ∧ (newCtx.setItem known (.obj 7)).1.getItem known = .ok (.obj 7) := by decide +kernel
example : newCtx.contains "xyzzy".toList = false ∧ newCtx.getItem "xyzzy".toList = .error .key ∧ (newCtx.setItem "xyzzy".toList (.obj 7)).2 = some .key := by
  decide +kernel

/-! test_push_known, test_push_unknown -/
example : (newCtx.push [(known, .obj 7)]).1.getItem known = .ok (.obj 7) ∧ (newCtx.push [(known, .obj 7)]).1.pop.1.getItem known ≠ .ok (.obj 7) := by decide +kernel
example : (newCtx.push [("xyzzy".toList, .obj 7)]).2 = some .key ∧ (newCtx.push [("xyzzy".toList, .obj 7)]).1.pop.2 = some .runtime := by decide +kernel

/-! test_update_known, test_update_unknown -/
example : (newCtx.update [(known, .obj 1), (known2, .obj 2)]).1.getItem known = .ok (.obj 1) ∧
  (newCtx.update [(known, .obj 1), (known2, .obj 2)]).1.getItem known2 = .ok (.obj 2) := by decide +kernel
example : (newCtx.update [("xyzzy".toList, .int 123)]).2 = some .key ∧ (newCtx.update [("xyzzy".toList, .int 123)]).1.contains "xyzzy".toList = false := by
  decide +kernel

/-! test_default_minimum_stack, test_stack_plain_push_pop -/
example : newCtx.pop.2 = some .runtime := by decide +kernel
example : (newCtx.push []).1.getItem known = newCtx.getItem known ∧ ((newCtx.push []).1.setItem known (.obj 7)).1.getItem known = .ok (.obj 7) ∧
  ((newCtx.push []).1.setItem known (.obj 7)).1.pop.1.getItem known = newCtx.getItem known ∧
  ((newCtx.push []).1.setItem known (.obj 7)).1.pop.1.pop.2 = some .runtime := by decide +kernel

/-! ### test_tag_context.py -/

/-- the field of the form called test [no code] -/
def valued : Bind := stringBind "test_valued" "val"
/-- the form [no code] -/
def theForm : Bind := stringBind "test" ""

/-- a tag after `gen.begin(**kw)` [no code] -/
def withOut (name : String) (b : Bind) (kw : List (String × HtmlVal)) (settings : List (String × HtmlVal)) : Except PyErr String :=
  match tagProperties.find? (·.1 == name.toList) with
  | some p => (propertyCall true p (some b) (atts kw) ((Ctx.generator []).1.begin (atts settings)).1.top).2.map String.ofList
  | .none => .error .attribute

example : propOut true "input" (some valued) [] = .ok "<input name=\"test_valued\" value=\"val\" />" := by decide +kernel
example : withOut "input" valued [] [("auto_value", .bool false)] = .ok "<input name=\"test_valued\" />" := by decide +kernel
example : propOut true "input" (some valued) [] [("auto_value", .bool false)] = .ok "<input name=\"test_valued\" />" := by decide +kernel
example : propOut true "input" (some valued) [] [("auto_value", t "off")] = .ok "<input name=\"test_valued\" />" := by decide +kernel
example : propOut true "input" (some valued) [("auto_value", .bool false)] = .ok "<input name=\"test_valued\" />" := by decide +kernel
example : withOut "input" valued [("auto_value", t "auto")] [("auto_value", .bool false)] = .ok "<input name=\"test_valued\" />" := by decide +kernel
example : propOut true "form" (some theForm) [] = .ok "<form name=\"test\"></form>" := by decide +kernel
example : withOut "form" theForm [] [("auto_name", .bool false)] = .ok "<form></form>" := by decide +kernel
example : propOut true "form" (some theForm) [] [("auto_name", .bool false)] = .ok "<form></form>" := by decide +kernel
example : propOut true "form" (some theForm) [("auto_name", .bool false)] = .ok "<form></form>" := by decide +kernel
example : withOut "form" theForm [("auto_name", t "auto")] [("auto_name", .bool false)] = .ok "<form></form>" := by decide +kernel
example : propOut true "select" (some valued) [] = .ok "<select name=\"test_valued\"></select>" := by decide +kernel
example : withOut "select" valued [] [("auto_domid", .bool true), ("domid_format", t "-%s-")] = .ok "<select name=\"test_valued\" id=\"-test_valued-\"></select>" := by
  decide +kernel
example : propOut true "select" (some valued) [] [("auto_domid", .bool true), ("domid_format", t "-%s-")] =
  .ok "<select name=\"test_valued\" id=\"-test_valued-\"></select>" := by decide +kernel
example : propOut true "select" (some valued) [("auto_domid", .bool true)] [("domid_format", t "-%s-")] =
  .ok "<select name=\"test_valued\" id=\"-test_valued-\"></select>" := by decide +kernel
example : withOut "select" valued [("auto_domid", t "auto")] [("auto_domid", .bool true), ("domid_format", t "-%s-")] =
  .ok "<select name=\"test_valued\" id=\"-test_valued-\"></select>" := by decide +kernel

/-- funky_filter of the test [no code] -/
def funky : TagFilter := ⟨[], fun _ x => { x.put "class".toList (t "required") with contents := match x.contents with | .text c => .text (c ++ " *".toList) | c => c }⟩
example : (tagCall [funky] ⟨true, false, false⟩ "label".toList (some valued) (atts [("contents", t "field2")])
    ((Ctx.generator []).1.begin (atts [("auto_filter", .bool true)])).1.top).2.map String.ofList = .ok "<label class=\"required\">field2 *</label>" := by decide +kernel

/-! ### test_genshi.py -/

/-- an element or attribute without namespace [no code] -/
def q (n : String) : QN := ⟨.none, n.toList⟩

/-- attributes in a Genshi template [no code] -/
def gatts (l : List (String × GVal)) : GAttrs := l.map fun x => (q x.1, x.2)

/-- an attribute with a text [no code] -/
def gt (x : String) : GVal := .val (t x)

/-- an attribute's value as text [no code] -/
def shownVal : GVal → String
  | .val (.text y) => String.ofList y
  | .val (.markup y) => String.ofList y
  | .parts ps => String.ofList ((joinPieces ps).toOption.getD [])
  | _ => "?"

/-- the prefix of the tests for a namespace [no code] -/
def shownName (n : QN) : String := (if n.ns.isSome then "xyzzy:" else "") ++ String.ofList n.loc

/-- an event as text [no code] -/
def shownEv : Ev → String
  | .start n as => "<" ++ shownName n ++ String.join (as.map fun x => " " ++ shownName x.1 ++ "=\"" ++ shownVal x.2 ++ "\"") ++ ">"
  | .stop n => "</" ++ shownName n ++ ">"
  | .text y _ => String.ofList y
  | .shown y _ => String.ofList y
  | _ => "?"

/-- a tag with this contents, once the directives were applied, as text [no code] -/
def rewritten (tag : String) (ds : List Dir) (b : Bind) (as : GAttrs) (inside : List Ev) : Except PyErr String :=
  (rewriteStream [] ds (some b) defaultFrame (.start (q tag) as :: inside ++ [.stop (q tag)])).map fun x => String.join (x.2.map shownEv)

/-! test_directive_ordering (the input), test_attribute_interpolation -/
example : rewritten "input" [] (stringBind "element" "") [] [] = .ok "<input name=\"element\" value=\"\"></input>" := by decide +kernel
example : rewritten "input" [.control "auto-domid".toList [.shown "on".toList]] element [] [] =
  .ok "<input name=\"element\" value=\"val\" id=\"f_element\"></input>" := by decide +kernel
example : rewritten "input" [.control "auto-domid".toList [.text "o".toList, .shown "n".toList]] element [] [] =
  .ok "<input name=\"element\" value=\"val\" id=\"f_element\"></input>" := by decide +kernel
example : ∀ v ∈ [GVal.parts [.shown "val".toList], .parts [.text "v".toList, .shown "a".toList, .text "l".toList],
    .parts [.shown "v".toList, .text "a".toList, .shown "l".toList]],
  rewritten "input" [] element (gatts [("type", gt "checkbox"), ("value", v)]) [] =
    .ok "<input type=\"checkbox\" value=\"val\" name=\"element\" checked=\"checked\"></input>" := by decide +kernel

/-! test_attributes_preserved, test_attribute_removal -/
example : rewritten "input" [] (stringBind "element" "") [(⟨some "yo".toList, "blat".toList⟩, gt "pow"), (q "class", gt "abc")] [] =
  .ok "<input xyzzy:blat=\"pow\" class=\"abc\" name=\"element\" value=\"\"></input>" := by decide +kernel
example : rewritten "input" [] (stringBind "element" "") (gatts [("type", gt "checkbox"), ("value", gt "xyzzy"), ("checked", gt "checked")]) [] =
  .ok "<input type=\"checkbox\" value=\"xyzzy\" name=\"element\"></input>" := by decide +kernel

/-! test_stream_preserved -/
example : rewritten "button" [] (stringBind "element" "") [] [.text "\n  ".toList true, .start (q "em") [], .text "wow!".toList true, .stop (q "em"), .text " ".toList true,
    .shown "2".toList false, .text "\n".toList true] = .ok "<button name=\"element\" value=\"\">\n  <em>wow!</em> 2\n</button>" := by decide +kernel
example : rewritten "button" [] (stringBind "element" "") [] [.stream [.start (q "b") [], .text "lumpy.".toList true, .stop (q "b")]] =
  .ok "<button name=\"element\" value=\"\"><b>lumpy.</b></button>" := by decide +kernel
example : rewritten "button" [] (stringBind "element" "") [] [.stream [.text "flat.".toList true]] =
  .ok "<button name=\"element\" value=\"\">flat.</button>" := by decide +kernel

end Flatland.Conf
