import Verif.Model.Page
import Verif.Spec.Markup
/-
Vocabulary for C65: what a browser submits for a page.

The browser is an ideal one: it submits every text control of the page under its name, in order, with the value it was given.  Real ones
also change line ends.
-/
namespace Flatland.Spec
open Flatland

/-- what an attribute of a tag that was read is -/
def readValue (as : List (PStr × PStr)) (k : PStr) : Option PStr := (as.find? (·.1 = k)).map (·.2)

/-- types of inputs that submit text as it is -/
def textTypes : List PStr := ["text".toList, "hidden".toList, "search".toList, "tel".toList]

/-- types of inputs that submit their value only when they are checked -/
def boxTypes : List PStr := ["checkbox".toList, "radio".toList]

/-- What is submitted for an input with these attributes: a text control submits its `value` ('' if there is none), a checkbox or radio
button only if it is checked ('on' if it has no value). Other types are not treated. -/
def submitsInput (as : List (PStr × PStr)) : Option PStr :=
  if (readValue as kType).getD "text".toList ∈ textTypes then some ((readValue as kValue).getD [])
  else if (readValue as kType).getD [] ∈ boxTypes then
    if (readValue as kChecked).isSome then some ((readValue as kValue).getD "on".toList) else .none
  else .none

/-- What is submitted for a tag: nothing unless it is an input or a textarea with a name; a textarea submits the text up to the next tag. -/
def submits (out : PStr) : Option (PStr × PStr) :=
  match readTag out with
  | some (tag, as, rest) =>
    match readValue as kName with
    | some n =>
      if tag = "input".toList then (submitsInput as).map fun v => (n, v)
      else if tag = "textarea".toList then (readText (rest.takeWhile (· ≠ '<'))).map fun v => (n, v)
      else .none
    | .none => .none
  | .none => .none

/-- no keyword of this name is given (trailing underscores do not count) -/
def NotGiven (kw : Attrs) (k : PStr) : Prop := ∀ p ∈ kw, stripKey p.1 ≠ k

/-- a keyword of this name is given, with this value -/
def IsGiven (kw : Attrs) (k : PStr) (v : HtmlVal) : Prop := (∃ p ∈ kw, stripKey p.1 = k) ∧ ∀ p ∈ kw, stripKey p.1 = k → p.2 = v

/-- A tag for the element `b` which is given neither a name, contents nor the switches for name and value; what it is given, other than
switches, are texts under proper names. -/
structure PlainTag (c : PageCall) (b : Bind) : Prop where
  bound : c.bound = some b
  named : b.name ≠ []
  free : ∀ k ∈ [kName, kAutoName, kAutoValue, "contents".toList], NotGiven c.kw k
  keys : ∀ p ∈ c.kw, ∀ x ∈ p.1, nameChar x = true
  texts : ∀ p ∈ c.kw, stripKey p.1 ∉ autoKeys → ∃ t, p.2 = .text t

/-- A text control for the element `b`, without a value of its own: a textarea, or an input of a type for text. -/
structure TextControl (c : PageCall) (b : Bind) : Prop where
  plain : PlainTag c b
  free : NotGiven c.kw kValue
  tag : (c.tag = "input".toList ∧ (NotGiven c.kw kType ∨ ∃ t ∈ textTypes, IsGiven c.kw kType (.text t))) ∨ c.tag = "textarea".toList

/-- A checkbox or radio button for the element `b` that stands for the value `v`; the checkbox of a Boolean may do without a value. -/
structure BoxControl (c : PageCall) (b : Bind) (v : PStr) : Prop where
  plain : PlainTag c b
  tag : c.tag = "input".toList
  type : (∃ t ∈ boxTypes, IsGiven c.kw kType (.text t) ∧ IsGiven c.kw kValue (.text v)) ∨
    (IsGiven c.kw kType (.text "checkbox".toList) ∧ NotGiven c.kw kValue ∧ b.kind = .boolean v)

/-- Something else on the page: not an input or textarea. -/
def OtherTag (c : PageCall) : Prop := c.tag ≠ "input".toList ∧ c.tag ≠ "textarea".toList ∧ ∀ x ∈ c.tag, nameChar x = true

/-- What a page shows: the pairs of its text controls and of those checkboxes and radio buttons whose element has their value. -/
inductive PageShows [Runtime] : List PageCall → List (PStr × PStr) → Prop
  | nil : PageShows [] []
  | text {c b r ps} : TextControl c b → PageShows r ps → PageShows (c :: r) ((b.name, b.u) :: ps)
  | boxOn {c b v r ps} : BoxControl c b v → ShowsValue b (.text v) → PageShows r ps → PageShows (c :: r) ((b.name, v) :: ps)
  | boxOff {c b v r ps} : BoxControl c b v → ¬ ShowsValue b (.text v) → PageShows r ps → PageShows (c :: r) ps
  | other {c r ps} : OtherTag c → PageShows r ps → PageShows (c :: r) ps

/-- names and values are generated in this scope -/
def FillsIn [Runtime] [Casing] (f : OptFrame) : Prop := ∀ k ∈ [kAutoName, kAutoValue], SwitchedOn [] f k

/-- the options have values of the right kinds -/
structure SoundFrame (f : OptFrame) : Prop where
  full : FullFrame f
  format : ∃ pre post, IdFormat f pre post
  tab : ∃ n : Int, dictGet f kTabindex = some (.int n)
  ordered : ∃ b : Bool, dictGet f kOrdered = some (.bool b)

end Flatland.Spec
