import Verif.Model.TagStack
import Verif.Spec.Markup
/-
Vocabulary for C67: what was done with the tags of a generator.
-/
namespace Flatland.Spec
open Flatland

/-- What a template may do with tags: ask the generator for one (`got n i`: it was given tag `i` for the name `n`), open it, close it, output
it as a whole, or change the options of the generator.  Opening or outputting a tag may raise; the template goes on. -/
inductive TagEvent where
  | got (n : PStr) (i : Nat)
  | opened (i : Nat)
  | closed (i : Nat)
  | called (i : Nat)
  | options
  deriving DecidableEq

/-- a history of a generator, up to the state `g` -/
inductive TagHistory [Runtime] [Casing] (xml : Bool) (f : OptFrame) : List TagEvent → TagGen → Prop
  | new : TagHistory xml f [] (newGen xml f)
  | got {es g} (n : PStr) (d p : Bool) : TagHistory xml f es g → TagHistory xml f (es ++ [.got n (g.getTag n d p).1]) (g.getTag n d p).2
  | opened {es g i o} (bd : Option Bind) (kw : Attrs) : TagHistory xml f es g → g.objs[i]? = some o →
      TagHistory xml f (es ++ [.opened i]) (g.openTag i o bd kw).1
  | closed {es g i o} : TagHistory xml f es g → g.objs[i]? = some o → TagHistory xml f (es ++ [.closed i]) (g.closeTag i o).1
  | called {es g i o} (bd : Option Bind) (kw : Attrs) : TagHistory xml f es g → g.objs[i]? = some o →
      TagHistory xml f (es ++ [.called i]) (g.callTag i o bd kw).1
  | options {es g} (f' : OptFrame) : TagHistory xml f es g → TagHistory xml f (es ++ [.options]) { g with frame := f' }

/-- the tag was opened, and not closed since -/
def IsOpen (es : List TagEvent) (i : Nat) : Prop := ∃ pre post, es = pre ++ .opened i :: post ∧ .closed i ∉ post

/-- the tag is open since the `k`-th event -/
def OpenSince (es : List TagEvent) (i k : Nat) : Prop :=
  ∃ pre post, es = pre ++ .opened i :: post ∧ pre.length = k ∧ .closed i ∉ post ∧ ¬ IsOpen pre i

/-- the tag is one of this name -/
def Named (es : List TagEvent) (n : PStr) (i : Nat) : Prop := .got n i ∈ es

/-- Markup in which elements are properly nested: text, elements `<name ...>` … `</name>` around more of it, and elements that have no
closing tag (`<name ... />`, and `<input ...>` in HTML). `IsHead name a`: `a` is an opening tag of that name up to its terminator. -/
def IsHead (name a : PStr) : Prop := ∀ fin ∈ [['>'], " />".toList], ∀ rest, ∃ as, readTag (a ++ fin ++ rest) = some (name, as, rest)

inductive Nested (xml : Bool) : PStr → Prop
  | nil : Nested xml []
  | text {t r : PStr} : '<' ∉ t → Nested xml r → Nested xml (t ++ r)
  | empty {name a r : PStr} : IsHead name a → Nested xml r → xml = true → Nested xml (a ++ " />".toList ++ r)
  | void {a r : PStr} : IsHead "input".toList a → Nested xml r → xml = false → Nested xml (a ++ ['>'] ++ r)
  | element {name a b r : PStr} : IsHead name a → Nested xml b → Nested xml r →
      Nested xml (a ++ ['>'] ++ b ++ "</".toList ++ name ++ ['>'] ++ r)

end Flatland.Spec
