import Verif.Model.Markup
import Verif.Spec.Escape
import Verif.Spec.Trool
/-
Vocabulary for C54 and C56–C59.
-/
namespace Flatland.Spec
open Flatland

/-! The names of attributes, switches and options are those of the documentation; the statements use these abbreviations. -/
example :
    kName = "name".toList ∧ kValue = "value".toList ∧ kType = "type".toList ∧ kId = "id".toList ∧ kFor = "for".toList ∧
    kTabindex = "tabindex".toList ∧ kChecked = "checked".toList ∧ kSelected = "selected".toList ∧ kAutoName = "auto_name".toList ∧
    kAutoValue = "auto_value".toList ∧ kAutoDomid = "auto_domid".toList ∧ kAutoFor = "auto_for".toList ∧
    kAutoTabindex = "auto_tabindex".toList ∧ kAutoFilter = "auto_filter".toList ∧ kDomidFormat = "domid_format".toList ∧
    kFilters = "filters".toList ∧ kOrdered = "ordered_attributes".toList ∧ kMarkupWrapper = "markup_wrapper".toList := by decide

/-- the tags that get a name, a value, an id, a for and a tab index of their own accord -/
def tagsWithName : List PStr := ["input".toList, "button".toList, "select".toList, "textarea".toList, "form".toList]
def tagsWithValue : List PStr := ["button".toList, "input".toList, "option".toList, "textarea".toList]
def tagsWithId : List PStr := ["input".toList, "button".toList, "select".toList, "textarea".toList]
def tagsWithFor : List PStr := ["label".toList]
def tagsWithTabindex : List PStr := ["input".toList, "button".toList, "select".toList, "textarea".toList]

/-- the options there are -/
def documentedOptions : List PStr :=
  ["auto_name".toList, "auto_value".toList, "auto_domid".toList, "domid_format".toList, "auto_for".toList, "auto_tabindex".toList,
   "tabindex".toList, "auto_filter".toList, "filters".toList, "markup_wrapper".toList]

/-- what a reader of the markup should see for an attribute value (Markup objects, which are meant to go out raw, have none) -/
def shownText [Runtime] : HtmlVal → Option PStr
  | .text s => some s
  | .none => some []
  | .bool false => some []
  | .int 0 => some []
  | .obj n => if Runtime.truthObj n then .none else some []
  | _ => .none

section
variable [Runtime] [Casing]

/-- what was given explicitly for a switch -/
def given (a : Attrs) (key : PStr) : HtmlVal := parseTrool ((dictGet a key).getD .maybe)

/-- given as on -/
def Forced (a : Attrs) (key : PStr) : Prop := given a key = .bool true

/-- name and value are generated by default, ids, for, tabindex and filters are not -/
def DefaultOn (key : PStr) : Prop := key = kAutoName ∨ key = kAutoValue

/-- the option in the current scope -/
def option (f : OptFrame) (key : PStr) : HtmlVal := parseTrool ((dictGet f key).getD .maybe)

/-- A switch is on: given as on, or not decided there and on in the current scope, or not decided there either and on by default. -/
def SwitchedOn (a : Attrs) (f : OptFrame) (key : PStr) : Prop :=
  given a key = .bool true ∨ (given a key = .maybe ∧ (option f key = .bool true ∨ (option f key = .maybe ∧ DefaultOn key)))

/-- An attribute is to be generated: its switch is on, and either it was given as on or the attribute is missing and the tag is one of
those that get it. -/
def Generated (a : Attrs) (f : OptFrame) (key attr : PStr) (tags : List PStr) (tag : PStr) : Prop :=
  SwitchedOn a f key ∧ (Forced a key ∨ (attrGet a attr = .none ∧ tag ∈ tags))

end

/-- the switches -/
def autoKeys : List PStr := [kAutoName, kAutoValue, kAutoDomid, kAutoFor, kAutoTabindex, kAutoFilter]

/-- the attributes a transform may write -/
def generatedKeys : List PStr := [kName, kValue, kChecked, kSelected, kId, kFor, kTabindex]

/-- every option of the default context is there -/
def FullFrame (f : OptFrame) : Prop := ∀ k ∈ documentedOptions, (dictGet f k).isSome

/-- a Python dict has a key only once -/
def DictLike (a : Attrs) : Prop := (dictKeys a).Nodup

/-- what kind of control a tag makes, as far as its value is concerned -/
inductive Control where
  | box       -- checkbox or radio button: marked as checked
  | secret    -- password, file and image inputs: the value is not sent unless asked for
  | choice    -- option: marked as selected
  | area      -- textarea: the value is the text between the tags
  | field     -- anything else: the value is an attribute
  deriving DecidableEq

/-- an attribute has this text -/
def IsText (v : HtmlVal) (t : PStr) : Prop := v = .text t ∨ v = .markup t

instance (v : HtmlVal) (t : PStr) : Decidable (IsText v t) := inferInstanceAs (Decidable (_ ∨ _))

def controlOf (tag : PStr) (a : Attrs) : Control :=
  if tag = "option".toList then .choice
  else if tag = "textarea".toList then .area
  else if tag = "input".toList then
    if IsText (attrGet a kType) "radio".toList ∨ IsText (attrGet a kType) "checkbox".toList then .box
    else if IsText (attrGet a kType) "password".toList ∨ IsText (attrGet a kType) "file".toList ∨ IsText (attrGet a kType) "image".toList then .secret
    else .field
  else .field

/-- The value a checkbox or radio button stands for: its value attribute.  Without one, a radio button stands for '', a checkbox of a
Boolean for the text of True, another checkbox for None. -/
def boxStands (b : Bind) (a : Attrs) : HtmlVal :=
  if IsText (attrGet a kType) "checkbox".toList then
    match attrGet a kValue, b.kind with
    | .none, .boolean t => .text t
    | v, _ => v
  else (dictGet a kValue).getD (.text [])

/-- The value an option stands for: its value attribute, or else its contents without surrounding white space. -/
def choiceStands [Runtime] (a : Attrs) (contents : HtmlVal) : HtmlVal :=
  match attrGet a kValue with
  | .none => match contents with
    | .text c => .text (strip c)
    | .markup c => .text (strip c)
    | .none => .text []
    | c => c
  | v => v

/-- The bound element has this value: some member of an Array equals the member made of it; the text of another element is it. -/
def ShowsValue [Runtime] (b : Bind) (v : HtmlVal) : Prop :=
  match b.kind with
  | .array t ms => ∃ m ∈ ms, pyEq m.value (scalarSet t .fresh v.toPy).1.value = true ∧ m.u = (scalarSet t .fresh v.toPy).1.u
  | _ => IsText v b.u

/-- the value of the bound element is to be shown in this tag -/
def ValueOn [Runtime] [Casing] (a : Attrs) (f : OptFrame) (tag : PStr) : Prop :=
  SwitchedOn a f kAutoValue ∧ (Forced a kAutoValue ∨ tag ∈ tagsWithValue)

/-- the characters that may occur in the value part of an id -/
def idAllowed : List Char := "ABCDEFGHIJKLMNOPQRSTUVWXYZabcdefghijklmnopqrstuvwxyz0123456789_:.-".toList

/-- the text of an attribute, '' if there is none -/
def textOf (v : HtmlVal) : PStr :=
  match v with
  | .text t => t
  | .markup t => t
  | _ => []

/-- What counts as no name: an attribute that is absent, None, '', False or 0. -/
def NoName (v : HtmlVal) : Prop := v = .none ∨ IsText v [] ∨ v = .bool false ∨ v = .int 0

instance (v : HtmlVal) : Decidable (NoName v) := inferInstanceAs (Decidable (_ ∨ _))

/-- The part of an id that tells the checkboxes and radio buttons of one element apart: the allowed characters of their value. -/
def idSuffix (a : Attrs) : PStr := (textOf (attrGet a kValue)).filter (· ∈ idAllowed)

/-- the id of a control for an element (before formatting) -/
def domId (tag : PStr) (a : Attrs) (basis : PStr) : PStr :=
  if controlOf tag a = .box ∧ idSuffix a ≠ [] then basis ++ '_' :: idSuffix a else basis

/-- what the contents of a tag are shown as: texts and Markup as they are, nothing for false values, and otherwise their text -/
def ContentsText [Runtime] (v : HtmlVal) (c : PStr) : Prop :=
  v = .text c ∨ v = .markup c ∨
  (c = [] ∧ (v = .none ∨ v = .bool false ∨ v = .int 0 ∨ ∃ n, v = .obj n ∧ Runtime.truthObj n = false)) ∨
  (v = .bool true ∧ c = "True".toList) ∨ (∃ i, i ≠ 0 ∧ v = .int i ∧ c = decimalInt i) ∨
  (∃ n, v = .obj n ∧ Runtime.truthObj n = true ∧ c = Runtime.textObj (.obj n))

/-- a text as it is written in a format: `%` is doubled -/
def inFormat (p : PStr) : PStr := p.flatMap fun c => if c = '%' then ['%', '%'] else [c]

/-- the format of ids in the current scope: something around the id -/
def IdFormat (f : OptFrame) (pre post : PStr) : Prop :=
  dictGet f kDomidFormat = some (.text (inFormat pre ++ '%' :: 's' :: inFormat post))

/-- the tag gets a tab index of its own accord -/
def TakesTab [Runtime] [Casing] (f : OptFrame) (c : TagUse) : Prop := Generated c.attrs f kAutoTabindex kTabindex tagsWithTabindex c.tag

open Classical in
/-- the tab indexes that tags got of their own accord, in order -/
noncomputable def tabbed [Runtime] [Casing] (f : OptFrame) : List TagUse → List (Option TagState) → List HtmlVal
  | c :: cs, some s :: os => if TakesTab f c then attrGet s.attrs kTabindex :: tabbed f cs os else tabbed f cs os
  | _ :: cs, .none :: os => tabbed f cs os
  | _, _ => []

/-- the option `ordered_attributes` is on -/
def OrderedAttrs [Runtime] (f : OptFrame) : Prop := ∃ v, dictGet f kOrdered = some v ∧ v.truth = .ok true

/-- a keyword without its trailing underscores, as in `class_` -/
def stripKey (k : PStr) : PStr := (k.reverse.dropWhile (· = '_')).reverse

end Flatland.Spec
