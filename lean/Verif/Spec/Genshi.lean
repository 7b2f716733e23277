import Verif.Model.Genshi
import Verif.Spec.Markup
/-
Vocabulary for C70: what the Genshi directives are meant to do to a template.
-/
namespace Flatland.Spec
open Flatland

/-! ### attributes -/

/-- the text of the pieces of an interpolated attribute, unless one of them raises -/
def partsText : List APart → Option PStr
  | [] => some []
  | .text s :: r => (partsText r).map (s ++ ·)
  | .shown s :: r => (partsText r).map (s ++ ·)
  | .raises _ :: _ => .none

/-- what an attribute written in the template stands for -/
def attrValue : GVal → Option HtmlVal
  | .val (.text s) => some (.text s)
  | .val (.markup s) => some (.markup s)
  | .val _ => .none
  | .parts ps => (partsText ps).map .text

/-- the options whose names have hyphens in templates -/
def hyphened : List (PStr × PStr) :=
  [("auto-name".toList, "auto_name".toList), ("auto-value".toList, "auto_value".toList), ("auto-domid".toList, "auto_domid".toList),
   ("auto-for".toList, "auto_for".toList), ("auto-tabindex".toList, "auto_tabindex".toList), ("auto-filter".toList, "auto_filter".toList),
   ("domid-format".toList, "domid_format".toList)]

/-- the name of an option as it is known outside templates -/
def underscored (k : PStr) : PStr := ((hyphened.find? fun p => p.1 = k).map (·.2)).getD k

/-- no name is used twice -/
def DistinctNames (a : GAttrs) : Prop := (a.map (·.1)).Nodup

/-- the value of an attribute -/
def attrOf (a : GAttrs) (q : QN) : Option GVal := (a.find? fun p => p.1 = q).map (·.2)

/-- the name of an attribute without namespace -/
def plain (k : PStr) : QN := ⟨.none, k⟩

/-- The option a switch in the template is read as. -/
def switchKey (name : PStr) : PStr :=
  if name = "auto-name".toList then kAutoName
  else if name = "auto-value".toList then kAutoValue
  else if name = "auto-domid".toList then kAutoDomid
  else if name = "auto-for".toList then kAutoFor
  else if name = "auto-tabindex".toList then kAutoTabindex
  else if name = "auto-filter".toList then kAutoFilter
  else if name = "domid-format".toList then "domid_format".toList
  else name

/-- what one directive says about an option -/
def dirValue (k : PStr) : Dir → Option HtmlVal
  | .control name ps => if switchKey name = k then (partsText ps).map .text else .none
  | _ => .none

/-- what the switches of a tag say about an option: the last one counts -/
def switchValue (ds : List Dir) (k : PStr) : Option HtmlVal := ds.reverse.findSome? (dirValue k)

/-- What the transforms are given for a tag: the plain attributes, and the switches where there is no plain attribute of that name. -/
def Offered (ds : List Dir) (a : GAttrs) (m : Attrs) : Prop :=
  DictLike m ∧ ∀ k, dictGet m k = match attrOf a (plain k) with
    | some v => attrValue v
    | .none => switchValue ds k

/-- The attributes of the tag that goes out, given what the transforms made of the plain ones.  Attributes with a namespace stay as they
are, plain attributes keep their places, those that are gone are left out, and the new ones follow. -/
def Merged (a : GAttrs) (m : Attrs) (out : GAttrs) : Prop :=
  ∃ new : Attrs, (∀ k v, (k, v) ∈ new ↔ dictGet m k = some v ∧ attrOf a (plain k) = .none) ∧
    new.Pairwise (fun p q => attrBefore p.1 q.1 = true) ∧
    out = a.filterMap (fun p => if p.1.ns = .none then (dictGet m p.1.loc).map (fun v => (p.1, .val v)) else some p) ++
      new.map fun p => (plain p.1, .val p.2)

/-! ### contents -/

/-- the text an event stands for, if it is text: template text, or an expression that gives text -/
def evText : Ev → Option PStr
  | .text s _ => some s
  | .shown s _ => some s
  | _ => .none

/-- the text of events that are all text -/
def allText : List Ev → Option PStr
  | [] => some []
  | e :: r => match evText e, allText r with
    | some s, some t => some (s ++ t)
    | _, _ => .none

mutual
/-- the text of an event that is text or an expression that gives some, or a stream of such events -/
def deepText : Ev → Option PStr
  | .text s _ => some s
  | .shown s _ => some s
  | .stream evs => deepTexts evs
  | _ => .none
/-- the same of several -/
def deepTexts : List Ev → Option PStr
  | [] => some []
  | e :: r => match deepText e, deepTexts r with
    | some s, some t => some (s ++ t)
    | _, _ => .none
end

/-- tags, comments and the like: not an expression and no text -/
def isHard : Ev → Bool
  | .start _ _ => true
  | .stop _ => true
  | .sub _ _ => true
  | .other _ => true
  | _ => false

/-- there is something other than text in it, and up to there no expression that raises or gives a stream -/
def HasTags (evs : List Ev) : Prop := ∃ pre e post, evs = pre ++ e :: post ∧ (allText pre).isSome ∧ isHard e = true

/-! ### trees -/

/-- a part of a template that is well-formed: text and the like, a tag, something with directives -/
inductive GNode where
  | leaf (e : Ev)
  | el (tag : QN) (attrs : GAttrs) (kids : List GNode)
  | sub (ds : List Dir) (kids : List GNode)

/-- neither the start nor the end of anything -/
def isLeaf : Ev → Bool
  | .start _ _ => false
  | .stop _ => false
  | .sub _ _ => false
  | _ => true

mutual
/-- leaves are leaves -/
def GNode.wf : GNode → Bool
  | .leaf e => isLeaf e
  | .el _ _ kids => wfNodes kids
  | .sub _ kids => wfNodes kids
def wfNodes : List GNode → Bool
  | [] => true
  | n :: r => n.wf && wfNodes r
end

mutual
/-- the events of a part of a template -/
def GNode.events : GNode → List Ev
  | .leaf e => [e]
  | .el t a kids => .start t a :: (nodeEvents kids ++ [.stop t])
  | .sub ds kids => [.sub ds (nodeEvents kids)]
def nodeEvents : List GNode → List Ev
  | [] => []
  | n :: r => n.events ++ nodeEvents r
end

mutual
/-- Every tag `q` below gets a binding to `b` of its own, except inside of something that is bound already. -/
def GNode.bound (q : QN) (b : Bind) : GNode → GNode
  | .leaf e => .leaf e
  | .el t a kids =>
    if t = q ∧ attrOf a q = .none then .sub [.bind (some b)] [.el t a (boundNodes q b kids)] else .el t a (boundNodes q b kids)
  | .sub ds kids => if ∃ d ∈ ds, d.isBind = true then .sub ds kids else .sub ds (boundNodes q b kids)
def boundNodes (q : QN) (b : Bind) : List GNode → List GNode
  | [] => []
  | n :: r => n.bound q b :: boundNodes q b r
end

/-! ### what is between the start and the end of a tag -/

/-- What the transforms are told about the contents of a tag: nothing if there are none, their text if they are all text, else that there is
something (`obj 0` stands for the stream). -/
inductive Inner : List Ev → HtmlVal → Prop where
  | empty : Inner [] .none
  | text (inner : List Ev) (t : PStr) : inner ≠ [] → deepTexts inner = some t → Inner inner (.text t)
  | tags (inner : List Ev) : HasTags inner → Inner inner (.obj 0)

/-- What is there afterwards, given what the transforms made of it. -/
inductive After (inner : List Ev) : HtmlVal → List Ev → Prop where
  | nothing : After inner .none inner
  | text (s : PStr) : After inner (.text s) [.text s false]
  | markup (s : PStr) : After inner (.markup s) [.text s true]
  | stream : After inner (.obj 0) inner

/-- The options of a bound select are bound to the same element; other tags have their contents as they are. -/
def OptionsBound (tag : QN) (bound : Option Bind) (inner inner' : List Ev) : Prop :=
  match bound with
  | some b =>
    if tag.loc = "select".toList then
      ∀ ns, wfNodes ns = true → inner = nodeEvents ns → inner' = nodeEvents (boundNodes ⟨tag.ns, "option".toList⟩ b ns)
    else inner' = inner
  | .none => inner' = inner

/-- an attribute without namespace that is a text, or whatever a transform left there -/
def plainPair : QN × GVal → Option (PStr × HtmlVal)
  | (⟨.none, k⟩, .val v) => some (k, v)
  | _ => .none

/-- the attributes without namespace -/
def plainOf (a : GAttrs) : Attrs := a.filterMap plainPair

/-! ### directives -/

/-- the order in which directives take effect: those of others, then flatland's, each in the order they come in -/
def dirOrder (ds : List Dir) : List Dir := ds.filter (fun d => !d.isLocal) ++ ds.filter Dir.isLocal

end Flatland.Spec
