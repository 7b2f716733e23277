import Verif.Model.Escape
import Verif.Model.Mappings
import Verif.Model.Scalars
/-
Model of the attribute transforms of flatland/out/generic.py and of the tags of flatland/out/markup.py.

Attribute sets and context frames are Python dicts with text keys.  A context is represented here by its topmost frame, which is all that
transforms and tags read and write (flatland/out/generic.py:49-59); the stack itself is in Model/Context.lean.
Simplifications: the `markup_wrapper` is the default one; filters do not raise.
-/
namespace Flatland

/-- [the attribute dict, out/markup.py:260] -/
abbrev Attrs := PyDict PStr HtmlVal
/-- [one frame of the context, out/generic.py:30] -/
abbrev OptFrame := PyDict PStr HtmlVal

/-- [out/generic.py:113] -/
def kName : PStr := "name".toList
/-- [out/generic.py:134] -/
def kValue : PStr := "value".toList
/-- [out/generic.py:131] -/
def kType : PStr := "type".toList
/-- [out/generic.py:190] -/
def kId : PStr := "id".toList
/-- [out/generic.py:206] -/
def kFor : PStr := "for".toList
/-- [out/generic.py:222] -/
def kTabindex : PStr := "tabindex".toList
/-- [out/generic.py:145] -/
def kChecked : PStr := "checked".toList
/-- [out/generic.py:170] -/
def kSelected : PStr := "selected".toList
/-- [out/generic.py:103] -/
def kAutoName : PStr := "auto_name".toList
/-- [out/generic.py:120] -/
def kAutoValue : PStr := "auto_value".toList
/-- [out/generic.py:184] -/
def kAutoDomid : PStr := "auto_domid".toList
/-- [out/generic.py:200] -/
def kAutoFor : PStr := "auto_for".toList
/-- [out/generic.py:216] -/
def kAutoTabindex : PStr := "auto_tabindex".toList
/-- [out/generic.py:234] -/
def kAutoFilter : PStr := "auto_filter".toList
/-- [out/generic.py:184] -/
def kDomidFormat : PStr := "domid_format".toList
/-- [out/generic.py:234] -/
def kFilters : PStr := "filters".toList
/-- [out/markup.py:8] -/
def kOrdered : PStr := "ordered_attributes".toList
/-- [out/generic.py:84] -/
def kMarkupWrapper : PStr := "markup_wrapper".toList

/-- what a bound element is to the transforms: `isinstance(bind, Boolean)` with its `true` text, `isinstance(bind, Array)` with its
members (of a scalar class), or neither.  flatland/out/generic.py:135-143. -/
inductive BindKind where
  | boolean (trueText : PStr)
  | array (member : ScalarType) (members : List ScalarState)
  | plain

/-- a bound element: `flattened_name()`, `u`, kind [out/generic.py:109, 135-143] -/
structure Bind where
  name : PStr
  u : PStr
  kind : BindKind

/-- the tags a transform applies to by itself (`_auto_tags`), flatland/out/generic.py:102 -/
def nameTags : List PStr := ["input".toList, "button".toList, "select".toList, "textarea".toList, "form".toList]
/-- [out/generic.py:119] -/
def valueTags : List PStr := ["button".toList, "input".toList, "option".toList, "textarea".toList]
/-- [out/generic.py:183] -/
def idTags : List PStr := ["input".toList, "button".toList, "select".toList, "textarea".toList]
/-- [out/generic.py:199] -/
def forTags : List PStr := ["label".toList]
/-- [out/generic.py:215] -/
def tabindexTags : List PStr := ["input".toList, "button".toList, "select".toList, "textarea".toList]

/-- the entries of `_default_context`, flatland/out/generic.py:84, 103, 120, 184, 200, 216, 234 (`filters` and `markup_wrapper` are objects) -/
def defaultFrame : OptFrame :=
  [(kMarkupWrapper, .obj 0), (kAutoName, .bool true), (kAutoValue, .bool true), (kAutoDomid, .bool false), (kDomidFormat, .text "f_%s".toList),
   (kAutoFor, .bool false), (kAutoTabindex, .bool false), (kTabindex, .int 0), (kAutoFilter, .bool false), (kFilters, .obj 1)]

/-- `attributes.get(key)` [out/generic.py:113, 131, 134, 190, 206, 226] -/
def attrGet (a : Attrs) (k : PStr) : HtmlVal := (dictGet a k).getD .none

/-- `value == text`; a Markup compares as the text it is [out/generic.py:132, 143, 168] -/
def HtmlVal.eqText : HtmlVal → PStr → Bool
  | .text s, t => s == t
  | .markup s, t => s == t
  | _, _ => false

/-- `bool(value)` [out/generic.py:280, 287, out/markup.py:265] -/
def HtmlVal.truth [Runtime] : HtmlVal → Except PyErr Bool
  | .text s => .ok (s != [])
  | .markup s => .ok (s != [])
  | .bool b => .ok b
  | .maybe => .error .notImplemented
  | .none => .ok false
  | .int i => .ok (decide (i ≠ 0))
  | .obj n => .ok (Runtime.truthObj n)

/-- the native value handed to an element [out/generic.py:141, 166] -/
def HtmlVal.toPy : HtmlVal → PyVal
  | .text s => .str s
  | .markup s => .str s
  | .bool b => .bool b
  | .none => .none
  | .int i => .int i
  | .maybe => .obj 0
  | .obj n => .obj (n + 1)

/-- `value in bind`, flatland/schema/containers.py:377-387: the value is made a member, then compared with `Element.__eq__`. -/
def arrayHas [Runtime] (t : ScalarType) (members : List ScalarState) (v : HtmlVal) : Except PyErr Bool :=
  match scalarSet t .fresh v.toPy with
  | (e, .ok _) => .ok (members.any fun m => pyEq m.value e.value && m.u == e.u)
  | (_, .error er) => .error er

/-- `toggle` of transform_value, flatland/out/generic.py:140-143, 165-168. -/
def bindMatches [Runtime] (b : Bind) (v : HtmlVal) : Except PyErr Bool :=
  match b.kind with
  | .array t ms => arrayHas t ms v
  | _ => .ok (v.eqText b.u)

/-- attributes and contents on their way through the transforms, and the context [out/generic.py:16-20] -/
structure TagState where
  attrs : Attrs
  contents : HtmlVal
  frame : OptFrame

/-- [out/generic.py:115, 145, 150, 154, 195, 211, 228] -/
def TagState.put (s : TagState) (k : PStr) (v : HtmlVal) : TagState := { s with attrs := dictPut s.attrs k v }
/-- [out/generic.py:147, 172, 266] -/
def TagState.del (s : TagState) (k : PStr) : TagState := { s with attrs := dictDel s.attrs k }

/-- the boolean in a switch; `parse_trool` and `_default_context` only give True and False here [out/generic.py:254-272] -/
def isOn : HtmlVal → Bool
  | .bool b => b
  | _ => false

section
variable [Runtime] [Casing]

/-- `_pop_toggle`, flatland/out/generic.py:254-272: the effective value, whether it was forced, and the state without the key. -/
def popToggle (key : PStr) (s : TagState) : Except PyErr (Bool × Bool × TagState) :=
  let v := parseTrool ((dictGet s.attrs key).getD .maybe)
  let s := s.del key
  let forced := decide (v = .bool true)
  if v = .maybe then
    match dictGet s.frame key with
    | .none => .error .key
    | some c =>
      let v := parseTrool c
      if v = .maybe then .ok (isOn ((dictGet defaultFrame key).getD .none), forced, s)
      else .ok (isOn v, forced, s)
  else .ok (isOn v, forced, s)

/-- `transform_name`, flatland/out/generic.py:104-116. -/
def transformName (tag : PStr) (bind : Option Bind) (s : TagState) : Except PyErr TagState := do
  let (proceed, forced, s) ← popToggle kAutoName s
  match bind with
  | .none => .ok s
  | some b =>
    if !proceed then .ok s
    else if b.name = [] then .ok s
    else if forced || (attrGet s.attrs kName = .none && tag ∈ nameTags) then .ok (s.put kName (.text b.name))
    else .ok s

/-- `attributes['checked'] = 'checked'` or `attributes.pop('checked', None)`, flatland/out/generic.py:144-147, 169-172 -/
def markAs (k : PStr) (on : Bool) (s : TagState) : TagState := if on then s.put k (.text k) else s.del k

/-- the value a radio or checkbox stands for, flatland/out/generic.py:133-138, with the state it leaves -/
def boxValue (b : Bind) (checkbox : Bool) (s : TagState) : HtmlVal × TagState :=
  if checkbox then
    match attrGet s.attrs kValue, b.kind with
    | .none, .boolean t => (.text t, s.put kValue (.text t))
    | v, _ => (v, s)
  else ((dictGet s.attrs kValue).getD (.text []), s)

/-- `attributes['value'] = bind.u` if there is none or it is forced, flatland/out/generic.py:152-154, 177-179 -/
def fillValue (b : Bind) (forced : Bool) (s : TagState) : TagState :=
  if attrGet s.attrs kValue = .none || forced then s.put kValue (.text b.u) else s

/-- the value an option stands for, flatland/out/generic.py:156-164 -/
def optionValue (s : TagState) : HtmlVal :=
  match attrGet s.attrs kValue with
  | .none => match s.contents with
    | .text c => .text (strip c)
    | .markup c => .text (strip c)
    | .none => .text []
    | c => c
  | v => v

/-- `transform_value`, flatland/out/generic.py:121-180. -/
def transformValue (tag : PStr) (bind : Option Bind) (s : TagState) : Except PyErr TagState := do
  let (proceed, forced, s) ← popToggle kAutoValue s
  match bind with
  | .none => .ok s
  | some b =>
    if !proceed then .ok s
    else if !forced && !(tag ∈ valueTags) then .ok s
    else if tag = "input".toList then
      let subtype := (dictGet s.attrs kType).getD (.text [])
      if subtype.eqText "radio".toList || subtype.eqText "checkbox".toList then do
        let (current, s) := boxValue b (subtype.eqText "checkbox".toList) s
        let on ← bindMatches b current
        .ok (markAs kChecked on s)
      else if subtype.eqText "password".toList || subtype.eqText "file".toList || subtype.eqText "image".toList then
        .ok (if forced then s.put kValue (.text b.u) else s)
      else .ok (fillValue b forced s)
    else if tag = "option".toList then do
      let on ← bindMatches b (optionValue s)
      .ok (markAs kSelected on s)
    else if tag = "textarea".toList then
      .ok (if s.contents = .none || forced then { s with contents := .markup (markupEscape b.u) } else s)
    else .ok (fillValue b forced s)

/-- characters kept by `_id_invalid_re`, flatland/out/generic.py:13 -/
def idChar (c : Char) : Bool :=
  (65 ≤ c.toNat && c.toNat ≤ 90) || (97 ≤ c.toNat && c.toNat ≤ 122) || (48 ≤ c.toNat && c.toNat ≤ 57) ||
  c = '_' || c = ':' || c = '.' || c = '-'

/-- `_sanitize_domid_suffix`, flatland/out/generic.py:292-301; `re.sub` of something that is not text raises TypeError. -/
def sanitize : HtmlVal → Except PyErr PStr
  | .text s => .ok (s.filter idChar)
  | .markup s => .ok (s.filter idChar)
  | _ => .error .type

/-- what an id is made from, flatland/out/generic.py:276-281: the flattened name of the bound element, or the `name` attribute, as the text
`%s` makes of it; '' if it is false.  Simplified: the text of a true object is not ''. -/
def rawBasis (attrs : Attrs) : Option Bind → Except PyErr PStr
  | some b => .ok b.name
  | .none => match (attrGet attrs kName).truth with
    | .error e => .error e
    | .ok true => .ok (attrGet attrs kName).pyStr
    | .ok false => .ok []

/-- can a text be added to what the id is made from (`basis += ...`)?  A name attribute that is no text raises TypeError. [out/generic.py:288] -/
def basisIsText (attrs : Attrs) : Option Bind → Bool
  | some _ => true
  | .none => match attrGet attrs kName with
    | .text _ => true
    | .markup _ => true
    | _ => false

/-- `_generate_raw_domid`, flatland/out/generic.py:275-289; '' when it returns None. -/
def rawDomid (tag : PStr) (attrs : Attrs) (bind : Option Bind) : Except PyErr PStr := do
  let basis ← rawBasis attrs bind
  if basis = [] then .ok []
  else if tag = "input".toList && ((attrGet attrs kType).eqText "checkbox".toList || (attrGet attrs kType).eqText "radio".toList) then do
    let suffix ← sanitize ((dictGet attrs kValue).getD (.text []))
    if suffix = [] then .ok basis
    else if basisIsText attrs bind then .ok (basis ++ '_' :: suffix)
    else .error .type
  else .ok basis

/-- `fmt % text`: `%s` is replaced, `%%` is `%`; one `%s` is needed, another conversion or a second one is a TypeError
(`used` tells whether one was seen). Simplified: other conversions than `%s` always fail. [Python % formatting; used at out/generic.py:195, 211] -/
def formatS (x : PStr) : Bool → PStr → Except PyErr PStr
  | used, [] => if used then .ok [] else .error .type
  | used, '%' :: 's' :: r => if used then .error .type else (formatS x true r).map (x ++ ·)
  | used, '%' :: '%' :: r => (formatS x used r).map ('%' :: ·)
  | _, ['%'] => .error .value
  | _, '%' :: _ :: _ => .error .type
  | used, c :: r => (formatS x used r).map (c :: ·)

/-- `context['domid_format'] % raw_id`, flatland/out/generic.py:194-195 -/
def formatDomid (frame : OptFrame) (raw : PStr) : Except PyErr PStr :=
  match dictGet frame kDomidFormat with
  | some (.text f) => formatS raw false f
  | some (.markup f) => formatS raw false f
  | some _ => .error .type
  | .none => .error .key

/-- `transform_domid`, flatland/out/generic.py:185-196. -/
def transformDomid (tag : PStr) (bind : Option Bind) (s : TagState) : Except PyErr TagState := do
  let (proceed, forced, s) ← popToggle kAutoDomid s
  if !proceed then .ok s
  else if forced || (attrGet s.attrs kId = .none && tag ∈ idTags) then do
    let raw ← rawDomid tag s.attrs bind
    if raw = [] then .ok s
    else do
      let x ← formatDomid s.frame raw
      .ok (s.put kId (.text x))
  else .ok s

/-- `transform_for`, flatland/out/generic.py:201-212. -/
def transformFor (tag : PStr) (bind : Option Bind) (s : TagState) : Except PyErr TagState := do
  let (proceed, forced, s) ← popToggle kAutoFor s
  match bind with
  | .none => .ok s
  | some b =>
    if !proceed then .ok s
    else if forced || (attrGet s.attrs kFor = .none && tag ∈ forTags) then do
      let raw ← rawDomid tag s.attrs (some b)
      if raw = [] then .ok s
      else do
        let x ← formatDomid s.frame raw
        .ok (s.put kFor (.text x))
    else .ok s

/-- `transform_tabindex`, flatland/out/generic.py:217-231.  Simplified: a `tabindex` option that is not an int counts as a TypeError. -/
def transformTabindex (tag : PStr) (s : TagState) : Except PyErr TagState := do
  let (proceed, forced, s) ← popToggle kAutoTabindex s
  if !proceed then .ok s
  else match dictGet s.frame kTabindex with
    | .none => .error .key
    | some (.int n) =>
      if n = 0 then .ok s
      else if forced || (attrGet s.attrs kTabindex = .none && tag ∈ tabindexTags) then
        let s := s.put kTabindex (.text (decimalInt n))
        if n > 0 then .ok { s with frame := dictPut s.frame kTabindex (.int (n + 1)) } else .ok s
      else .ok s
    | some _ => .error .type

/-- a filter: the tags it wants (`tags`, none or empty: all) and its action [out/generic.py:242-247] -/
structure TagFilter where
  tags : List PStr
  run : PStr → TagState → TagState

/-- `transform_filters`, flatland/out/generic.py:236-251; `fs` are the functions in `context['filters']`. -/
def transformFilters (fs : List TagFilter) (tag : PStr) (s : TagState) : Except PyErr TagState := do
  let (proceed, _, s) ← popToggle kAutoFilter s
  if !proceed then .ok s
  else .ok (fs.foldl (fun s f => if f.tags = [] ∨ tag ∈ f.tags then f.run tag s else s) s)

/-- `transform`, flatland/out/generic.py:16-20, with `_transforms` in their order. -/
def transformTag (fs : List TagFilter) (tag : PStr) (bind : Option Bind) (s : TagState) : Except PyErr TagState := do
  let s ← transformName tag bind s
  let s ← transformValue tag bind s
  let s ← transformDomid tag bind s
  let s ← transformFor tag bind s
  let s ← transformTabindex tag s
  transformFilters fs tag s

end

/-- a call to a tag: its name, the bound element, attributes and contents [out/markup.py:288] -/
structure TagUse where
  tag : PStr
  bound : Option Bind
  attrs : Attrs
  contents : HtmlVal

/-- A sequence of transforms in one scope: what each gives (none if it raises), and the context afterwards.  An exception leaves the
context as it was, since only `transform_tabindex` writes to it, after everything that can raise. [out/generic.py:16-20, 215-231] -/
def transformSeq [Runtime] [Casing] : List TagUse → OptFrame → List (Option TagState) × OptFrame
  | [], f => ([], f)
  | c :: r, f =>
    match transformTag [] c.tag c.bound ⟨c.attrs, c.contents, f⟩ with
    | .ok s => (some s :: (transformSeq r s.frame).1, (transformSeq r s.frame).2)
    | .error _ => (.none :: (transformSeq r f).1, (transformSeq r f).2)

/-! ### tags -/

/-- `str.__lt__`: by code points [Python; used at out/markup.py:272, 331] -/
def strLt : PStr → PStr → Bool
  | [], [] => false
  | [], _ :: _ => true
  | _ :: _, [] => false
  | a :: s, b :: t => if a = b then strLt s t else decide (a.toNat < b.toNat)

/-- `_attribute_sort_key`, flatland/out/markup.py:327-331, compared: type, name, value first, then by name -/
def attrRank (k : PStr) : Nat := if k = kType then 0 else if k = kName then 1 else if k = kValue then 2 else 3
/-- [out/markup.py:327-331] -/
def attrBefore (a b : PStr) : Bool := decide (attrRank a < attrRank b) || (attrRank a == 3 && attrRank b == 3 && strLt a b)

/-- `sorted(attributes.items(), key=...)` (a stable sort; the keys are different) [Python sorted; used at out/markup.py:272] -/
def insertAttr (p : PStr × HtmlVal) : Attrs → Attrs
  | [] => [p]
  | q :: r => if attrBefore p.1 q.1 then p :: q :: r else q :: insertAttr p r
/-- [out/markup.py:272, 327-331] -/
def sortAttrs : Attrs → Attrs
  | [] => []
  | p :: r => insertAttr p (sortAttrs r)

/-- the joined `k="v"` texts, flatland/out/markup.py:275-276, each with its leading space -/
def renderAttrs [Runtime] : Attrs → Except PyErr PStr
  | [] => .ok []
  | (k, v) :: r => do
    let e ← attributeEscape v
    let rest ← renderAttrs r
    .ok (' ' :: k ++ '=' :: '"' :: e ++ '"' :: rest)

/-- the contents as they go out, flatland/out/markup.py:265-269: falsy gives '', a Markup or a text goes out as it is -/
def renderContents [Runtime] : HtmlVal → Except PyErr PStr
  | .none => .ok []
  | .bool b => .ok (if b then "True".toList else [])
  | .int i => .ok (if i = 0 then [] else decimalInt i)
  | .maybe => .error .notImplemented
  | .obj n => .ok (if Runtime.truthObj n then Runtime.textObj (.obj n) else [])
  | .text s => .ok s
  | .markup s => .ok s

/-- `_unicode_keyed`, flatland/out/markup.py:319-324: trailing underscores go, a later key wins. -/
def unicodeKeyed (kw : Attrs) : Attrs := dictOf (kw.map fun p => ((p.1.reverse.dropWhile (· = '_')).reverse, p.2))

/-- the style of a tag: `Generator.xml`, `_html_dangle`, `_always_paired` [out/markup.py:28-33, 231-236] -/
structure TagStyle where
  xml : Bool
  dangle : Bool
  paired : Bool

/-- what `kwargs.pop('contents', None)` and `_unicode_keyed` give, flatland/out/markup.py:259-260 -/
def tagInput (kw : Attrs) (frame : OptFrame) : TagState :=
  ⟨unicodeKeyed (dictDel kw "contents".toList), (dictGet kw "contents".toList).getD .none, frame⟩

/-- `Tag._open`, flatland/out/markup.py:257-280: the new context, and the header (without terminator) with the contents. -/
def tagOpen [Runtime] [Casing] (fs : List TagFilter) (tag : PStr) (bind : Option Bind) (kw : Attrs) (frame : OptFrame) :
    OptFrame × Except PyErr (PStr × PStr) :=
  match transformTag fs tag bind (tagInput kw frame) with
  | .error e => (frame, .error e)
  | .ok s =>
    (s.frame, do
      let c ← renderContents s.contents
      let ordered ← match dictGet s.frame kOrdered with
        | some v => v.truth
        | .none => Except.error PyErr.key
      let guts ← renderAttrs (if ordered then sortAttrs s.attrs else s.attrs)
      .ok ('<' :: tag ++ guts, c))

/-- `Tag.__call__`, flatland/out/markup.py:288-300. -/
def tagCall [Runtime] [Casing] (fs : List TagFilter) (style : TagStyle) (tag : PStr) (bind : Option Bind) (kw : Attrs) (frame : OptFrame) :
    OptFrame × Except PyErr PStr :=
  match tagOpen fs tag bind kw frame with
  | (frame', .error e) => (frame', .error e)
  | (frame', .ok (header, contents)) =>
    (frame', .ok (
      if contents = [] ∧ style.paired = false ∧ style.xml = true then header ++ " />".toList
      else if contents = [] ∧ style.paired = false ∧ style.dangle = true then header ++ ['>']
      else header ++ ['>'] ++ contents ++ "</".toList ++ tag ++ ['>']))

end Flatland
