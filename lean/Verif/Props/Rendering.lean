import Verif.Proofs.MarkupOrder
import Verif.Props.Markup
/-
C54: what the markup generator and the `x` and `xa` properties give is read back as it was meant; and the order of attributes (C63).
-/
namespace Flatland
open Spec

/-! ## C54: escaping -/

/-- Reading an escaped attribute value gives the text. -/
theorem C54_attribute (s : PStr) : readAttr (attrEscape s) = some s ∧ ∀ c ∈ attrEscape s, c ≠ '"' ∧ c ≠ '<' ∧ c ≠ '>' :=
  ⟨read_attrEscape s, attrEscape_noquote s⟩

/-- Reading escaped contents gives the text. -/
theorem C54_contents (s : PStr) : readText (markupEscape s) = some s := read_markupEscape s

/-- `x` can be put between tags, `xa` between double quotes. -/
theorem C54_x_xa (u : PStr) : readText (elementX u) = some u ∧ readAttr (elementXa u) = some u := by
  refine ⟨read_saxEscape u, ?_⟩
  rw [elementXa_eq]
  exact read_xaBody u

/-- Different texts are never confused. -/
theorem C54_injective {s t : PStr} (h : attrEscape s = attrEscape t ∨ markupEscape s = markupEscape t ∨ elementX s = elementX t ∨ elementXa s = elementXa t) :
    s = t := by
  rcases h with h | h | h | h
  · exact Option.some.inj (by rw [← read_attrEscape s, h, read_attrEscape])
  · exact Option.some.inj (by rw [← read_markupEscape s, h, read_markupEscape])
  · exact Option.some.inj (by rw [← (C54_x_xa s).1, h, (C54_x_xa t).1])
  · exact Option.some.inj (by rw [← (C54_x_xa s).2, h, (C54_x_xa t).2])

section
variable [Runtime] [Casing]

omit [Casing] in
/-- An attribute value of any kind, other than a Markup object, is read back as its text (falsy values as ''). -/
theorem C54_value {v : HtmlVal} {e : PStr} (hm : ∀ t, v ≠ .markup t) (h : attributeEscape v = .ok e) :
    ∃ t, shownText v = some t ∧ readAttr e = some t := by
  obtain ⟨t, h1, h2, _⟩ := shown_of_escape hm h
  exact ⟨t, h1, h2⟩

theorem tagOpen_read (fs : List TagFilter) (tag : PStr) (bd : Option Bind) (kw : Attrs) (f : OptFrame) {header c : PStr} {s : TagState} {fin : PStr}
    (hfin : fin = ['>'] ∨ fin = " />".toList) (rest : PStr) (h : (tagOpen fs tag bd kw f).2 = .ok (header, c)) (hs : transformTag fs tag bd (tagInput kw f) = .ok s)
    (htag : ∀ x ∈ tag, nameChar x = true) (hk : ∀ p ∈ s.attrs, ∀ x ∈ p.1, nameChar x = true) (hm : ∀ p ∈ s.attrs, ∀ t, p.2 ≠ .markup t) :
    renderContents s.contents = .ok c ∧
    ∃ as, readTag (header ++ fin ++ rest) = some (tag, as, rest) ∧ as.Perm (s.attrs.map fun p => (p.1, (shownText p.2).getD [])) := by
  unfold tagOpen at h
  rw [hs] at h
  simp only [] at h
  obtain ⟨c', hc, h⟩ := bind_ok h
  have key : ∀ l : Attrs, l.Perm s.attrs → ((renderAttrs l >>= fun guts => .ok ('<' :: tag ++ guts, c')) : Except PyErr (PStr × PStr)) = .ok (header, c) →
      renderContents s.contents = .ok c ∧
      ∃ as, readTag (header ++ fin ++ rest) = some (tag, as, rest) ∧ as.Perm (s.attrs.map fun p => (p.1, (shownText p.2).getD [])) := by
    intro l hl h
    obtain ⟨guts, hg, h⟩ := bind_ok h
    simp only [Except.ok.injEq, Prod.mk.injEq] at h
    obtain ⟨h1, h2⟩ := h
    subst h1 h2
    refine ⟨hc, _, read_header fin rest tag hfin l guts htag (fun p hp => hk p (hl.mem_iff.1 hp)) (fun p hp => hm p (hl.mem_iff.1 hp)) hg, hl.map _⟩
  cases ho : dictGet s.frame kOrdered with
  | none => rw [ho] at h; cases h
  | some v =>
    rw [ho] at h
    simp only [] at h
    obtain ⟨b, hb, h⟩ := bind_ok h
    cases b with
    | true => exact key _ (sortAttrs_perm _) h
    | false => exact key _ (.refl _) h

/-- An opening tag is read back with its name and exactly the attributes that the transforms left, whatever text comes after it.
Attribute names and the tag name are not escaped, so they must be names; Markup values are not escaped. -/
theorem C54_open (fs : List TagFilter) (tag : PStr) (bd : Option Bind) (kw : Attrs) (f : OptFrame) {header c : PStr} {s : TagState}
    (rest : PStr) (h : (tagOpen fs tag bd kw f).2 = .ok (header, c)) (hs : transformTag fs tag bd (tagInput kw f) = .ok s)
    (htag : ∀ x ∈ tag, nameChar x = true) (hk : ∀ p ∈ s.attrs, ∀ x ∈ p.1, nameChar x = true) (hm : ∀ p ∈ s.attrs, ∀ t, p.2 ≠ .markup t) :
    ∃ as, readTag (header ++ ['>'] ++ rest) = some (tag, as, rest) ∧ as.Perm (s.attrs.map fun p => (p.1, (shownText p.2).getD [])) :=
  (tagOpen_read fs tag bd kw f (.inl rfl) rest h hs htag hk hm).2

/-- A complete tag is read back the same way; after the opening tag there is nothing, or the contents and the closing tag. -/
theorem C54_call (fs : List TagFilter) (style : TagStyle) (tag : PStr) (bd : Option Bind) (kw : Attrs) (f : OptFrame) {out : PStr} {s : TagState}
    (h : (tagCall fs style tag bd kw f).2 = .ok out) (hs : transformTag fs tag bd (tagInput kw f) = .ok s)
    (htag : ∀ x ∈ tag, nameChar x = true) (hk : ∀ p ∈ s.attrs, ∀ x ∈ p.1, nameChar x = true) (hm : ∀ p ∈ s.attrs, ∀ t, p.2 ≠ .markup t) :
    ∃ as rest c, readTag out = some (tag, as, rest) ∧ as.Perm (s.attrs.map fun p => (p.1, (shownText p.2).getD [])) ∧
      ContentsText s.contents c ∧
      ((rest = [] ∧ c = [] ∧ style.paired = false) ∨ rest = c ++ "</".toList ++ tag ++ ['>']) := by
  unfold tagCall at h
  cases ht : (tagOpen fs tag bd kw f).2 with
  | error e =>
    generalize hto : tagOpen fs tag bd kw f = r at h ht
    obtain ⟨f', x⟩ := r
    simp only [] at ht
    subst ht
    cases h
  | ok hc =>
    obtain ⟨header, c⟩ := hc
    have key := fun fin hfin rest => tagOpen_read fs tag bd kw f (fin := fin) hfin rest ht hs htag hk hm
    generalize hto : tagOpen fs tag bd kw f = r at h ht
    obtain ⟨f', x⟩ := r
    simp only [] at ht
    subst ht
    simp only [Except.ok.injEq] at h
    split at h
    · rename_i hcond
      obtain ⟨k1, as, k2, k3⟩ := key " />".toList (.inr rfl) []
      subst h
      refine ⟨as, [], c, by simpa using k2, k3, contents_text.2 k1, .inl ⟨rfl, hcond.1, hcond.2.1⟩⟩
    · split at h
      · rename_i hcond
        obtain ⟨k1, as, k2, k3⟩ := key ['>'] (.inl rfl) []
        subst h
        refine ⟨as, [], c, by simpa using k2, k3, contents_text.2 k1, .inl ⟨rfl, hcond.1, hcond.2.1⟩⟩
      · obtain ⟨k1, as, k2, k3⟩ := key ['>'] (.inl rfl) (c ++ "</".toList ++ tag ++ ['>'])
        subst h
        refine ⟨as, c ++ "</".toList ++ tag ++ ['>'], c, ?_, k3, contents_text.2 k1, .inr rfl⟩
        rw [← k2]
        simp

/-- The contents of a textarea for an element, when generated, are read back as the text of the element. -/
theorem C54_textarea (style : TagStyle) (hp : style.paired = true) (b : Bind) (kw : Attrs) (f : OptFrame) (hf : FullFrame f) {out : PStr} {s : TagState}
    (h : (tagCall [] style "textarea".toList (some b) kw f).2 = .ok out) (hs : transformTag [] "textarea".toList (some b) (tagInput kw f) = .ok s)
    (hk : ∀ p ∈ s.attrs, ∀ x ∈ p.1, nameChar x = true) (hm : ∀ p ∈ s.attrs, ∀ t, p.2 ≠ .markup t)
    (hon : ValueOn (tagInput kw f).attrs f "textarea".toList) (hc : (tagInput kw f).contents = .none ∨ Forced (tagInput kw f).attrs kAutoValue) :
    ∃ as c, readTag out = some ("textarea".toList, as, c ++ "</textarea>".toList) ∧ readText c = some b.u := by
  obtain ⟨as, rest, c, h1, h2, h3, h4⟩ := C54_call [] style _ _ kw f h hs (by decide) hk hm
  have hd : DictLike (tagInput kw f).attrs := unicodeKeyed_dict _
  have hv := (C56_value hd hf hs hon).2.1 (by unfold controlOf; rfl) hc
  rw [hv, contents_text] at h3
  simp only [renderContents, Except.ok.injEq] at h3
  subst h3
  refine ⟨as, markupEscape b.u, ?_, read_markupEscape _⟩
  rcases h4 with ⟨_, _, h⟩ | h
  · rw [hp] at h; cases h
  · rw [h1, h]
    congr 3
    simp

/-! ## C63: the order of attributes -/

omit [Casing] in
/-- `ordered_attributes` asks for order unless it is None, an empty text, False, 0 or a false object; Maybe is no answer. -/
theorem C63_ordered (f : OptFrame) : OrderedAttrs f ↔ ∃ v, dictGet f kOrdered = some v ∧
    ¬ (v = .none ∨ IsText v [] ∨ v = .bool false ∨ v = .int 0 ∨ v = .maybe ∨ ∃ n, v = .obj n ∧ Runtime.truthObj n = false) := by
  unfold OrderedAttrs IsText
  constructor <;> rintro ⟨v, h, hv⟩ <;> refine ⟨v, h, ?_⟩ <;> cases v <;> simp_all [HtmlVal.truth]

/-- With ordered attributes, the output does not depend on the order of the keywords (Python does not define it), in any case. -/
theorem C63_deterministic (style : TagStyle) (tag : PStr) (bd : Option Bind) (kw kw' : Attrs) (f : OptFrame) (hf : FullFrame f) (ho : OrderedAttrs f)
    (hp : kw.Perm kw') (hn : (kw.map (fun p => stripKey p.1)).Nodup) :
    tagCall [] style tag bd kw f = tagCall [] style tag bd kw' f ∧ tagOpen [] tag bd kw f = tagOpen [] tag bd kw' f := by
  have := tagOpen_same tag bd kw kw' f hf ho (tagInput_same hp hn f)
  refine ⟨?_, this⟩
  unfold tagCall
  rw [this]

/-- In any case, the attributes come out as a set: with any order of keywords the tag has the same attributes. -/
theorem C63_unordered (tag : PStr) (bd : Option Bind) (kw kw' : Attrs) (f : OptFrame) (hp : kw.Perm kw') (hn : (kw.map (fun p => stripKey p.1)).Nodup) :
    (∃ e, transformTag [] tag bd (tagInput kw f) = .error e ∧ transformTag [] tag bd (tagInput kw' f) = .error e) ∨
    ∃ s s', transformTag [] tag bd (tagInput kw f) = .ok s ∧ transformTag [] tag bd (tagInput kw' f) = .ok s' ∧ s.attrs.Perm s'.attrs ∧
      s.contents = s'.contents ∧ s.frame = s'.frame := by
  rcases transformTag_same tag bd (tagInput_same hp hn f) with ⟨s, t, e1, e2, h⟩ | ⟨e, e1, e2⟩
  · exact .inr ⟨s, t, e1, e2, perm_of_get h.left h.right h.get, h.contents, h.frame⟩
  · exact .inl ⟨e, e1, e2⟩

end

/-- The order of the output: type, name, value, then the others by name. -/
theorem C63_order (l : Attrs) (h : DictLike l) :
    (sortAttrs l).Perm l ∧
    (sortAttrs l).Pairwise (fun p q => [kType, kName, kValue].idxOf p.1 < [kType, kName, kValue].idxOf q.1 ∨
      (p.1 ∉ [kType, kName, kValue] ∧ q.1 ∉ [kType, kName, kValue] ∧ p.1 < q.1)) := by
  refine ⟨sortAttrs_perm l, (sortAttrs_sorted l h).imp ?_⟩
  intro p q hpq
  have hr : ∀ k, attrRank k = [kType, kName, kValue].idxOf k := by
    intro k
    unfold attrRank
    simp only [List.idxOf_cons, List.idxOf_nil]
    by_cases h1 : k = kType
    · subst h1; simp
    · have e1 : (kType == k) = false := by simpa using Ne.symm h1
      by_cases h2 : k = kName
      · subst h2; simp [h1, e1]
      · have e2 : (kName == k) = false := by simpa using Ne.symm h2
        by_cases h3 : k = kValue
        · subst h3; simp [h1, h2, e1, e2]
        · have e3 : (kValue == k) = false := by simpa using Ne.symm h3
          simp [h1, h2, h3, e1, e2, e3]
  rw [attrBefore_iff, hr, hr] at hpq
  rcases hpq with h' | ⟨h1, h2, h3⟩
  · exact .inl h'
  · refine .inr ⟨?_, ?_, ?_⟩
    · intro hm; have := List.idxOf_lt_length_of_mem hm; simp at this; omega
    · intro hm; have := List.idxOf_lt_length_of_mem hm; simp at this; omega
    · exact strLt_lt h3

/-- the order of attributes in the output -/
def InAttrOrder (as : List (PStr × PStr)) : Prop :=
  as.Pairwise fun p q => [kType, kName, kValue].idxOf p.1 < [kType, kName, kValue].idxOf q.1 ∨
    (p.1 ∉ [kType, kName, kValue] ∧ q.1 ∉ [kType, kName, kValue] ∧ p.1 < q.1)

section
variable [Runtime] [Casing]

/-- A rendered tag, as it is read back: with ordered attributes they come as type, name, value, and then the others by name; without, in the
order of the mapping. -/
theorem C63_output (style : TagStyle) (tag : PStr) (bd : Option Bind) (kw : Attrs) (f : OptFrame) (hf : FullFrame f) {out : PStr} {s : TagState}
    (h : (tagCall [] style tag bd kw f).2 = .ok out) (hs : transformTag [] tag bd (tagInput kw f) = .ok s)
    (htag : ∀ x ∈ tag, nameChar x = true) (hk : ∀ p ∈ s.attrs, ∀ x ∈ p.1, nameChar x = true) (hm : ∀ p ∈ s.attrs, ∀ t, p.2 ≠ .markup t) :
    ∃ as rest, readTag out = some (tag, as, rest) ∧ as.Perm (s.attrs.map fun p => (p.1, (shownText p.2).getD [])) ∧
      (OrderedAttrs f → InAttrOrder as) ∧ (¬ OrderedAttrs f → as = s.attrs.map fun p => (p.1, (shownText p.2).getD [])) := by
  have hd : DictLike s.attrs ∧ dictGet s.frame kOrdered = dictGet f kOrdered := by
    obtain ⟨_, _, _, _, s5, st⟩ := stages_of_ok (unicodeKeyed_dict _) hf hs
    obtain ⟨_, _, _, _, f5⟩ := transformTabindex_spec tag st.t4.dict (st.full5 hf) st.e5
    refine ⟨st.t6.dict, ?_⟩
    rw [st.f6]
    rcases f5 with f5 | ⟨n, f5⟩
    · rw [f5, st.f4]; rfl
    · rw [f5, dictGet_put, if_neg (by decide), st.f4]; rfl
  obtain ⟨hd, hfr⟩ := hd
  -- the header is that of the list of attributes in its order
  obtain ⟨l, hl, hon, hoff, header, c, hto, hread⟩ : ∃ l : Attrs, l.Perm s.attrs ∧ (OrderedAttrs f → l = sortAttrs s.attrs) ∧
      (¬ OrderedAttrs f → l = s.attrs) ∧ ∃ header c, (tagOpen [] tag bd kw f).2 = .ok (header, c) ∧
      ∀ fin, (fin = ['>'] ∨ fin = " />".toList) → ∀ rest,
        readTag (header ++ fin ++ rest) = some (tag, l.map fun p => (p.1, (shownText p.2).getD []), rest) := by
    cases hto : (tagOpen [] tag bd kw f).2 with
    | error e =>
      unfold tagCall at h
      generalize tagOpen [] tag bd kw f = r at h hto
      obtain ⟨f', x⟩ := r
      simp only [] at hto
      subst hto
      cases h
    | ok hc =>
      obtain ⟨header, c⟩ := hc
      unfold tagOpen at hto
      rw [hs] at hto
      simp only [] at hto
      obtain ⟨c', hc, hto⟩ := bind_ok hto
      rw [hfr] at hto
      cases ho : dictGet f kOrdered with
      | none => rw [ho] at hto; cases hto
      | some v =>
        rw [ho] at hto
        simp only [] at hto
        obtain ⟨b, hb, hto⟩ := bind_ok hto
        obtain ⟨guts, hg, hto⟩ := bind_ok hto
        simp only [Except.ok.injEq, Prod.mk.injEq] at hto
        obtain ⟨h1, h2⟩ := hto
        subst h1 h2
        have hperm : (if b = true then sortAttrs s.attrs else s.attrs).Perm s.attrs := by
          split
          · exact sortAttrs_perm _
          · exact .refl _
        refine ⟨_, hperm, ?_, ?_, _, _, rfl, ?_⟩
        · rintro ⟨v', hv', ht⟩
          rw [ho] at hv'
          cases hv'
          rw [hb] at ht
          cases ht
          rfl
        · intro hno
          cases b with
          | true => exact absurd ⟨v, ho, hb⟩ hno
          | false => rfl
        · intro fin hfin rest
          exact read_header fin rest tag hfin _ guts htag (fun p hp => hk p (hperm.mem_iff.1 hp)) (fun p hp => hm p (hperm.mem_iff.1 hp)) hg
  have hout : ∃ rest, readTag out = some (tag, l.map fun p => (p.1, (shownText p.2).getD []), rest) := by
    unfold tagCall at h
    generalize tagOpen [] tag bd kw f = r at h hto
    obtain ⟨f', x⟩ := r
    simp only [] at hto
    subst hto
    simp only [Except.ok.injEq] at h
    subst h
    split
    · exact ⟨[], by simpa using hread " />".toList (.inr rfl) []⟩
    · split
      · exact ⟨[], by simpa using hread ['>'] (.inl rfl) []⟩
      · exact ⟨c ++ "</".toList ++ tag ++ ['>'], by simpa using hread ['>'] (.inl rfl) (c ++ "</".toList ++ tag ++ ['>'])⟩
  obtain ⟨rest, hout⟩ := hout
  refine ⟨_, rest, hout, hl.map _, ?_, ?_⟩
  · intro ho
    rw [hon ho]
    unfold InAttrOrder
    rw [List.pairwise_map]
    exact (C63_order s.attrs hd).2
  · intro ho
    rw [hoff ho]

end


/-! ## Non-vacuity and limits -/

section examples
attribute [local instance] Runtime.ascii Spec.asciiCasing

def genFrame : OptFrame := dictPut defaultFrame kOrdered (.bool true)

def evil : Bind := ⟨"n".toList, "\"><script>&".toList, .plain⟩

example : FullFrame genFrame ∧ OrderedAttrs genFrame := ⟨by unfold FullFrame; decide, _, rfl, rfl⟩

example : (tagCall [] ⟨true, true, false⟩ "input".toList (some evil) [("class_".toList, .text "x".toList), (kType, .text "text".toList)] genFrame).2 =
    .ok "<input type=\"text\" name=\"n\" value=\"&quot;&gt;&lt;script&gt;&amp;\" class=\"x\" />".toList := by decide +kernel

example : readTag "<input type=\"text\" name=\"n\" value=\"&quot;&gt;&lt;script&gt;&amp;\" class=\"x\" />".toList =
    some ("input".toList, [(kType, "text".toList), (kName, "n".toList), (kValue, "\"><script>&".toList), ("class".toList, "x".toList)], []) := by decide +kernel

example : (tagCall [] ⟨true, false, true⟩ "textarea".toList (some evil) [] genFrame).2 =
    .ok "<textarea name=\"n\">\"&gt;&lt;script&gt;&amp;</textarea>".toList := by decide +kernel

/-- Explicit contents are not escaped: they are markup. -/
theorem C54_contents_raw : (tagCall [] ⟨true, false, false⟩ "p".toList .none [("contents".toList, .text "<b>".toList)] genFrame).2 =
    .ok "<p><b></p>".toList := by decide +kernel

/-- Nor are attribute names. -/
theorem C54_names_raw : (tagCall [] ⟨true, false, false⟩ "p".toList .none [("a\"><b c".toList, .text [])] genFrame).2 =
    .ok "<p a\"><b c=\"\" />".toList := by decide +kernel

end examples

end Flatland
