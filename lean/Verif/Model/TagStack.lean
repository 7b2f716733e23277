import Verif.Model.Page
/-
Model of the tags a generator hands out and of their `open` and `close` methods: flatland/out/markup.py:80-300.

Tag objects are known by their number: the first one made is 0.  Simplified: the `markup_wrapper` is the default one; there are no filters.
-/
namespace Flatland

/-- a Tag object: `tagname`, `_html_dangle`, `_always_paired`, `contents` (none before the first use) [out/markup.py:228-236] -/
structure TagObj where
  name : PStr
  dangle : Bool
  paired : Bool
  contents : Option PStr

/-- a generator: `xml`, the topmost frame of the context, the tags made so far, `_tags` [out/markup.py:27-37] -/
structure TagGen where
  xml : Bool
  frame : OptFrame
  objs : List TagObj
  stacks : PyDict PStr (List Nat)

/-- a new generator [out/markup.py:27-37] -/
def newGen (xml : Bool) (frame : OptFrame) : TagGen := ⟨xml, frame, [], []⟩

/-- `self._tags[tagname]`; a defaultdict, so a missing list is empty [out/markup.py:34, 206] -/
def TagGen.stackOf (g : TagGen) (n : PStr) : List Nat := (dictGet g.stacks n).getD []

/-- `Generator._tag`, flatland/out/markup.py:205-208: the tag on top of the stack of that name, or else a new one. -/
def TagGen.getTag (g : TagGen) (n : PStr) (dangle paired : Bool) : Nat × TagGen :=
  match (g.stackOf n).getLast? with
  | some i => (i, g)
  | .none => (g.objs.length, { g with objs := g.objs ++ [⟨n, dangle, paired, .none⟩] })

/-- `self.contents` after `_open`: set unless the transforms or the contents raise [out/markup.py:262-269] -/
def contentsAfter [Runtime] [Casing] (tag : PStr) (bound : Option Bind) (kw : Attrs) (frame : OptFrame) (old : Option PStr) : Option PStr :=
  match transformTag [] tag bound (tagInput kw frame) with
  | .error _ => old
  | .ok s => match renderContents s.contents with
    | .error _ => old
    | .ok c => some c

/-- the generator once `Tag._open` of a tag was called, flatland/out/markup.py:257-280 -/
def TagGen.opening [Runtime] [Casing] (g : TagGen) (i : Nat) (o : TagObj) (bound : Option Bind) (kw : Attrs) : TagGen :=
  { g with frame := (tagOpen [] o.name bound kw g.frame).1,
           objs := g.objs.set i { o with contents := contentsAfter o.name bound kw g.frame o.contents } }

/-- `Tag.open`, flatland/out/markup.py:238-247: the tag goes on the stack unless it is there, before anything can raise. -/
def TagGen.openTag [Runtime] [Casing] (g : TagGen) (i : Nat) (o : TagObj) (bound : Option Bind) (kw : Attrs) : TagGen × Except PyErr PStr :=
  let g' := if i ∈ g.stackOf o.name then g else { g with stacks := dictPut g.stacks o.name (g.stackOf o.name ++ [i]) }
  (g'.opening i o bound kw, (tagOpen [] o.name bound kw g'.frame).2.map fun p => p.1 ++ ['>'])

/-- `Tag.close`, flatland/out/markup.py:249-255, 282-283. -/
def TagGen.closeTag (g : TagGen) (i : Nat) (o : TagObj) : TagGen × PStr :=
  ({ g with stacks := dictPut g.stacks o.name ((g.stackOf o.name).erase i) }, "</".toList ++ o.name ++ ['>'])

/-- `Tag.__call__`, flatland/out/markup.py:288-300. -/
def TagGen.callTag [Runtime] [Casing] (g : TagGen) (i : Nat) (o : TagObj) (bound : Option Bind) (kw : Attrs) : TagGen × Except PyErr PStr :=
  (g.opening i o bound kw, (tagCall [] ⟨g.xml, o.dangle, o.paired⟩ o.name bound kw g.frame).2)

/-- The tags a generator has a property for, with `empty_in_html` and `always_paired`. [out/markup.py:79-183] -/
def tagProperties : List (PStr × Bool × Bool) :=
  [("form".toList, false, true), ("input".toList, true, false), ("textarea".toList, false, true), ("button".toList, false, false),
   ("select".toList, false, true), ("option".toList, false, true), ("label".toList, false, false)]

/-- `generator.name(bind, **kw)` for such a tag while none of that name is open [out/markup.py:79-183, 205-208, 288] -/
def propertyCall [Runtime] [Casing] (xml : Bool) (p : PStr × Bool × Bool) (bound : Option Bind) (kw : Attrs) (frame : OptFrame) :
    OptFrame × Except PyErr PStr :=
  tagCall [] ⟨xml, p.2.1, p.2.2⟩ p.1 bound kw frame

/-- `generator.tag(tagname, bind, **kw)` while none of that name is open: what it returns, or what the tag it returns gives when it is
output, flatland/out/markup.py:185-203, 302-303. -/
def tagMethod [Runtime] [Casing] (xml : Bool) (tagname : PStr) (bound : Option Bind) (kw : Attrs) (frame : OptFrame) :
    OptFrame × Except PyErr PStr :=
  tagCall [] ⟨xml, false, false⟩ (Casing.lower tagname) bound kw frame

/-! ### templates -/

/-- A template: text, complete tags, and tags opened with `generator.name.open(...)` and closed with `generator.name.close()` around
more of it. [out/markup.py:211-226] -/
inductive Template where
  | text (t : PStr)
  | tag (name : PStr) (dangle paired : Bool) (bound : Option Bind) (kw : Attrs)
  | block (name : PStr) (dangle paired : Bool) (bound : Option Bind) (kw : Attrs) (body : List Template)

/-- `generator.name` and then something done with that tag [out/markup.py:79-208] -/
def TagGen.withTag {α : Type} (g : TagGen) (n : PStr) (dangle paired : Bool) (k : TagGen → Nat → TagObj → α) (bad : α) : α :=
  match (g.getTag n dangle paired).2.objs[(g.getTag n dangle paired).1]? with
  | some o => k (g.getTag n dangle paired).2 (g.getTag n dangle paired).1 o
  | .none => bad

mutual
/-- What a template outputs; an exception ends it. [out/markup.py:205-255, 288-300, as a template calls them] -/
def renderTemplate [Runtime] [Casing] (g : TagGen) : Template → TagGen × Except PyErr PStr
  | .text t => (g, .ok t)
  | .tag n d p bd kw => g.withTag n d p (fun g i o => g.callTag i o bd kw) (g, .error .index)
  | .block n d p bd kw body =>
    match g.withTag n d p (fun g i o => g.openTag i o bd kw) (g, .error .index) with
    | (g, .error e) => (g, .error e)
    | (g, .ok a) =>
      match renderTemplates g body with
      | (g, .error e) => (g, .error e)
      | (g, .ok b) => g.withTag n d p (fun g i o => ((g.closeTag i o).1, .ok (a ++ b ++ (g.closeTag i o).2))) (g, .error .index)
/-- A sequence of templates. [out/markup.py:205-255, 288-300, as a template calls them] -/
def renderTemplates [Runtime] [Casing] (g : TagGen) : List Template → TagGen × Except PyErr PStr
  | [] => (g, .ok [])
  | t :: r =>
    match renderTemplate g t with
    | (g, .error e) => (g, .error e)
    | (g, .ok a) => ((renderTemplates g r).1, (renderTemplates g r).2.map (a ++ ·))
end

end Flatland
