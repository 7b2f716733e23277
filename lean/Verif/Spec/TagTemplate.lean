import Verif.Spec.TagStack
/-
Vocabulary for the nesting of what templates output (C67).
-/
namespace Flatland.Spec
open Flatland

/-- Keywords whose names can be read, without Markup objects as attributes, and with properly nested contents, if any. -/
structure ReadableKw [Runtime] (xml : Bool) (kw : Attrs) : Prop where
  dict : DictLike kw
  keys : ∀ p ∈ kw, ∀ x ∈ p.1, nameChar x = true
  values : ∀ p ∈ kw, p.1 ≠ "contents".toList → ∀ t, p.2 ≠ .markup t
  contents : ∀ v c, dictGet kw "contents".toList = some v → ContentsText v c → Nested xml c

/-- the name of a tag, and whether it may do without a closing tag in HTML: only an input does [out/markup.py:104] -/
structure ReadableTag (name : PStr) (dangle : Bool) : Prop where
  readable : ∀ x ∈ name, nameChar x = true
  open_ended : dangle = true → name = "input".toList

mutual
/-- a template made of text without tags and of readable tags -/
def ReadableTemplate [Runtime] (xml : Bool) : Template → Prop
  | .text t => '<' ∉ t
  | .tag n d _ _ kw => ReadableTag n d ∧ ReadableKw xml kw
  | .block n d _ _ kw body => ReadableTag n d ∧ ReadableKw xml kw ∧ ReadableTemplates xml body
def ReadableTemplates [Runtime] (xml : Bool) : List Template → Prop
  | [] => True
  | t :: r => ReadableTemplate xml t ∧ ReadableTemplates xml r
end

end Flatland.Spec
