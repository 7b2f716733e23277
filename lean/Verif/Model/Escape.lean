import Verif.Model.Trool
/-
Model of the escaping functions of flatland/out and flatland/schema/base.py.
-/
namespace Flatland

/-- `_attribute_escape` of a text without `__html__`, flatland/out/markup.py:306-315. -/
def attrEscape (s : PStr) : PStr :=
  replaceChar '"' "&quot;".toList (replaceChar '>' "&gt;".toList (replaceChar '<' "&lt;".toList (replaceChar '&' "&amp;".toList s)))

/-- `_markup_escape` of a text without `__html__`, flatland/out/generic.py:312-321. -/
def markupEscape (s : PStr) : PStr :=
  replaceChar '>' "&gt;".toList (replaceChar '<' "&lt;".toList (replaceChar '&' "&amp;".toList s))

/-- `xml.sax.saxutils.escape(data)` (standard library). [Python standard library; used at schema/base.py:872] -/
def saxEscape (s : PStr) : PStr :=
  replaceChar '<' "&lt;".toList (replaceChar '>' "&gt;".toList (replaceChar '&' "&amp;".toList s))

/-- `xml.sax.saxutils.quoteattr(data)` (standard library): escape, then line ends and tabs as character references, then quote with
whichever quote does not occur. [Python standard library; used at schema/base.py:880] -/
def quoteattr (s : PStr) : PStr :=
  let d := replaceChar '\t' "&#9;".toList (replaceChar '\r' "&#13;".toList (replaceChar '\n' "&#10;".toList (saxEscape s)))
  if '"' ∈ d then
    if '\'' ∈ d then '"' :: replaceChar '"' "&quot;".toList d ++ ['"']
    else '\'' :: d ++ ['\'']
  else '"' :: d ++ ['"']

/-- `Element.x`, flatland/schema/base.py:866-872. -/
def elementX (u : PStr) : PStr := saxEscape u

/-- `Element.xa`, flatland/schema/base.py:874-880: `quoteattr(u"'" + self.u)[2:-1]`. -/
def elementXa (u : PStr) : PStr := ((quoteattr ('\'' :: u)).drop 2).dropLast

/-- `_attribute_escape`, flatland/out/markup.py:306-315, of any value: falsy values give '', a Markup goes out as it is, text is escaped.
`not Maybe` raises NotImplementedError; other true values have no `replace`. -/
def attributeEscape [Runtime] : HtmlVal → Except PyErr PStr
  | .text s => .ok (attrEscape s)
  | .markup s => .ok s
  | .none => .ok []
  | .bool false => .ok []
  | .bool true => .error .attribute
  | .int i => if i = 0 then .ok [] else .error .attribute
  | .maybe => .error .notImplemented
  | .obj n => if Runtime.truthObj n then .error .attribute else .ok []

end Flatland
