import Verif.Model.Markup
/-
Model of flatland.out.generic.Context (flatland/out/generic.py:23-72) and of the option methods of
flatland.out.markup.Generator (flatland/out/markup.py:12-78).

Simplification: the call `self['markup_wrapper'](u'')` that makes the (empty) return value of begin, end and set is taken not to raise.
-/
namespace Flatland

/-- `Context._frames`: the last frame, and the others, innermost first.  There is always one. [out/generic.py:29-30] -/
structure Ctx where
  top : OptFrame
  below : List OptFrame

/-- `len(self._frames)` [out/generic.py:43, out/markup.py:56] -/
def Ctx.depth (c : Ctx) : Nat := c.below.length + 1

/-- `Context.__getitem__`, flatland/out/generic.py:49-50. -/
def Ctx.getItem (c : Ctx) (k : PStr) : Except PyErr HtmlVal :=
  match dictGet c.top k with
  | some v => .ok v
  | .none => .error .key

/-- `Context.__contains__`, flatland/out/generic.py:58-59. -/
def Ctx.contains (c : Ctx) (k : PStr) : Bool := (dictGet c.top k).isSome

/-- `Context.__setitem__`, flatland/out/generic.py:52-56; the context afterwards and the exception, if any. -/
def Ctx.setItem (c : Ctx) (k : PStr) (v : HtmlVal) : Ctx × Option PyErr :=
  if c.contains k then ({ c with top := dictPut c.top k v }, .none) else (c, some .key)

/-- `Context.update`, flatland/out/generic.py:61-71, with the pairs and then the keywords in one list. -/
def Ctx.update (c : Ctx) : List (PStr × HtmlVal) → Ctx × Option PyErr
  | [] => (c, .none)
  | (k, v) :: r =>
    match c.setItem k v with
    | (c', .none) => c'.update r
    | (c', some e) => (c', some e)

/-- `Context.pop`, flatland/out/generic.py:44-47. -/
def Ctx.pop (c : Ctx) : Ctx × Option PyErr :=
  match c.below with
  | [] => (c, some .runtime)
  | f :: r => (⟨f, r⟩, .none)

/-- `Context.push`, flatland/out/generic.py:34-42; only a KeyError can come from `update` here. -/
def Ctx.push (c : Ctx) (options : List (PStr × HtmlVal)) : Ctx × Option PyErr :=
  match (Ctx.mk c.top (c.top :: c.below)).update options with
  | (c', .none) => (c', .none)
  | (c', some e) => (c'.pop.1, some e)

/-- `Generator.begin`, flatland/out/markup.py:40-49. -/
def Ctx.begin (c : Ctx) (settings : List (PStr × HtmlVal)) : Ctx × Option PyErr := c.push settings

/-- `Generator.end`, flatland/out/markup.py:51-60. -/
def Ctx.end (c : Ctx) : Ctx × Option PyErr :=
  if c.depth = 2 then (c, some .runtime) else c.pop

/-- `Generator.set`, flatland/out/markup.py:62-78. -/
def Ctx.set [Casing] [Runtime] (c : Ctx) : List (PStr × HtmlVal) → Ctx × Option PyErr
  | [] => (c, .none)
  | (k, v) :: r =>
    if c.contains k then
      match c.setItem k (if "auto_".toList.isPrefixOf k then parseTrool v else v) with
      | (c', .none) => c'.set r
      | (c', some e) => (c', some e)
    else (c, some .type)

/-- `Generator.__init__`, flatland/out/markup.py:34-38: the base frame with the default settings, a second frame, the settings. -/
def Ctx.generator (settings : List (PStr × HtmlVal)) : Ctx × Option PyErr :=
  let base := dictPut defaultFrame kOrdered (.bool true)
  (Ctx.mk base [base]).update settings

/-- the operations of a generator [out/markup.py:39-77, out/generic.py:32-69] -/
inductive GenOp where
  | begin (settings : List (PStr × HtmlVal))
  | end
  | set (settings : List (PStr × HtmlVal))
  | setItem (k : PStr) (v : HtmlVal)
  | update (pairs : List (PStr × HtmlVal))
  | tag (use : TagUse)

/-- A call to a tag: the transforms read and write the topmost frame. [out/generic.py:16-20, 217-231] -/
def Ctx.tag [Casing] [Runtime] (c : Ctx) (u : TagUse) : Ctx × Option PyErr :=
  match transformTag [] u.tag u.bound ⟨u.attrs, u.contents, c.top⟩ with
  | .ok s => ({ c with top := s.frame }, .none)
  | .error e => (c, some e)

/-- One operation: the context afterwards, and the exception, if any. [out/markup.py:39-77] -/
def GenOp.run [Casing] [Runtime] (c : Ctx) : GenOp → Ctx × Option PyErr
  | .begin s => c.begin s
  | .end => c.end
  | .set s => c.set s
  | .setItem k v => c.setItem k v
  | .update p => c.update p
  | .tag u => c.tag u

/-- A history: any operations in any order; exceptions are caught by the caller, who goes on. [out/markup.py:39-77, client code] -/
def runGen [Casing] [Runtime] (c : Ctx) : List GenOp → Ctx
  | [] => c
  | o :: r => runGen (o.run c).1 r

end Flatland
