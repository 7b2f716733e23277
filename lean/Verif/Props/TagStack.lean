import Verif.Proofs.TagTemplate
/-
C67: tags that are opened and closed; C68: `generator.tag`.
-/
namespace Flatland
open Spec

section
variable [Runtime] [Casing]

/-! ## C67: opening and closing tags -/

/-- Whatever was done before, `generator.name` is the tag of that name that was opened last of those still open; if none is open, it is a
tag that was never handed out. -/
theorem C67_innermost {xml : Bool} {f : OptFrame} {es : List TagEvent} {g : TagGen} (h : TagHistory xml f es g) (n : PStr) (d p : Bool) :
    let i := (g.getTag n d p).1
    (Named es n i ∧ ∃ k, OpenSince es i k ∧ ∀ j l, Named es n j → OpenSince es j l → j ≠ i → l < k) ∨
    ((∀ j, Named es n j → ¬ IsOpen es j) ∧ (∀ m, ¬ Named es m i) ∧ (g.getTag n d p).2.objs[i]? = some ⟨n, d, p, .none⟩) := by
  have hi := history_inv h
  simp only []
  unfold TagGen.getTag
  cases hl : (g.stackOf n).getLast? with
  | none =>
    have he : g.stackOf n = [] := by simpa using hl
    right
    refine ⟨?_, ?_, by simp⟩
    · intro j hj ho
      have := (hi.mem n j).2 ⟨hj, ho⟩
      rw [he] at this
      cases this
    · intro m hm
      obtain ⟨o, ho, -⟩ := (hi.named m _).1 hm
      simp at ho
  | some i =>
    left
    simp only []
    have hmem : i ∈ g.stackOf n := List.mem_of_getLast? hl
    obtain ⟨h1, h2⟩ := (hi.mem n i).1 hmem
    obtain ⟨k, hk⟩ := since_exists h2
    have huniq : ∀ {i k l}, OpenSince es i k → OpenSince es i l → k = l := fun a b => since_unique a b
    refine ⟨h1, k, hk, ?_⟩
    intro j l hj hjl hne
    have hjm : j ∈ g.stackOf n := (hi.mem n j).2 ⟨hj, since_open hjl⟩
    rcases eq_nil_or_snoc (g.stackOf n) with he | ⟨r, x, he⟩
    · rw [he] at hjm; cases hjm
    · rw [he] at hl
      simp at hl
      subst hl
      have hr : j ∈ r := by
        rw [he] at hjm
        simp at hjm
        rcases hjm with h | h
        · exact h
        · exact absurd h hne
      have ho := hi.order n
      rw [he, List.pairwise_append] at ho
      obtain ⟨a, b, ha, hb, hab⟩ := ho.2.2 j hr x (by simp)
      rw [huniq hjl ha, huniq hk hb]
      exact hab

/-- Opening a tag, its contents and closing it say what calling it says, unless an empty tag is called that may do without a closing tag;
options change the same way, and both raise the same. -/
theorem C67_open_close (g : TagGen) (i : Nat) (o : TagObj) (bd : Option Bind) (kw : Attrs) (ho : g.objs[i]? = some o) :
    (g.openTag i o bd kw).1.frame = (g.callTag i o bd kw).1.frame ∧
    (∀ e, (g.callTag i o bd kw).2 = .error e ↔ (g.openTag i o bd kw).2 = .error e) ∧
    ∀ a, (g.openTag i o bd kw).2 = .ok a → ∃ o' c, (g.openTag i o bd kw).1.objs[i]? = some o' ∧ o'.contents = some c ∧ o'.name = o.name ∧
      ((c ≠ [] ∨ o.paired = true ∨ (g.xml = false ∧ o.dangle = false)) →
        (g.callTag i o bd kw).2 = .ok (a ++ c ++ ((g.openTag i o bd kw).1.closeTag i o').2)) := by
  have hfr : ∀ x : TagGen, x = (if i ∈ g.stackOf o.name then g else { g with stacks := dictPut g.stacks o.name (g.stackOf o.name ++ [i]) }) →
      x.frame = g.frame ∧ x.objs = g.objs := by
    intro x hx
    subst hx
    split <;> exact ⟨rfl, rfl⟩
  unfold TagGen.openTag TagGen.callTag
  simp only []
  generalize hg2 : (if i ∈ g.stackOf o.name then g else { g with stacks := dictPut g.stacks o.name (g.stackOf o.name ++ [i]) }) = g2
  obtain ⟨e1, e2⟩ := hfr g2 hg2.symm
  refine ⟨?_, ?_, ?_⟩
  · unfold TagGen.opening
    simp only [e1]
  · intro e
    rw [e1]
    unfold tagCall
    rcases hto : tagOpen [] o.name bd kw g.frame with ⟨f', e' | ⟨header, c⟩⟩
    · simp [Except.map]
    · simp [Except.map]
  · intro a ha
    rw [e1] at ha
    cases hs : transformTag [] o.name bd (tagInput kw g.frame) with
    | error e => unfold tagOpen at ha; rw [hs] at ha; cases ha
    | ok s =>
      rcases hto : tagOpen [] o.name bd kw g.frame with ⟨f', e' | ⟨header, c⟩⟩
      · rw [hto] at ha; cases ha
      · have hc : renderContents s.contents = .ok c := by
          unfold tagOpen at hto
          rw [hs] at hto
          simp only [Prod.mk.injEq] at hto
          obtain ⟨c', hc, h⟩ := bind_ok hto.2
          cases hk : dictGet s.frame kOrdered with
          | none => rw [hk] at h; cases h
          | some v =>
            rw [hk] at h
            simp only [] at h
            obtain ⟨b, -, h⟩ := bind_ok h
            obtain ⟨guts, -, h⟩ := bind_ok h
            simp only [Except.ok.injEq, Prod.mk.injEq] at h
            rw [hc, h.2]
        rw [hto] at ha
        simp only [Except.map, Except.ok.injEq] at ha
        subst ha
        have hlt : i < g2.objs.length := by
          rw [e2]
          rw [List.getElem?_eq_some_iff] at ho
          exact ho.1
        refine ⟨{ o with contents := contentsAfter o.name bd kw g2.frame o.contents }, c, ?_, ?_, rfl, ?_⟩
        · unfold TagGen.opening
          simp only []
          rw [List.getElem?_set_self hlt]
        · simp only []
          unfold contentsAfter
          rw [e1, hs]
          simp only [hc]
        · intro hcond
          unfold tagCall TagGen.closeTag
          rw [hto]
          simp only [Except.ok.injEq]
          rw [if_neg, if_neg]
          · simp
          · rintro ⟨h1, h2, h3⟩
            rcases hcond with h | h | h
            · exact h h1
            · rw [h] at h2; cases h2
            · rw [h.2] at h3; cases h3
          · rintro ⟨h1, h2, h3⟩
            rcases hcond with h | h | h
            · exact h h1
            · rw [h] at h2; cases h2
            · rw [h.1] at h3; cases h3

/-- A template that opens and closes tags in a nested way, through `generator.name`, outputs properly nested markup, and afterwards no tag
is open: `generator.name` is a new tag for every name. -/
theorem C67_nested {xml : Bool} {f : OptFrame} (hf : FullFrame f) {ts : List Template} (ht : ReadableTemplates xml ts) {g : TagGen} {out : PStr}
    (h : renderTemplates (newGen xml f) ts = (g, .ok out)) :
    Nested xml out ∧ ∀ n d p, (g.getTag n d p).2.objs[(g.getTag n d p).1]? = some ⟨n, d, p, .none⟩ := by
  have hg : GenOk xml (newGen xml f) := by
    refine ⟨rfl, hf, ?_, ?_⟩
    · intro i o h; simp [newGen] at h
    · intro n i h; simp [newGen, TagGen.stackOf, dictGet] at h
  refine ⟨(templates_nested ts hg ht h).2, ?_⟩
  intro n d p
  have he : g.stackOf n = [] := by
    have := templates_left ts hg (fun m => by simp [newGen, TagGen.stackOf, dictGet]) ht h n
    have h0 : (newGen xml f).stackOf n = [] := by simp [newGen, TagGen.stackOf, dictGet]
    rw [h0] at this
    exact List.prefix_nil.1 this
  unfold TagGen.getTag
  rw [he]
  simp

end

section
attribute [local instance] Runtime.ascii Spec.asciiCasing

/-- a form around a textarea and an input -/
def formTemplate : List Template :=
  [.block "form".toList false true .none [("method".toList, .text "POST".toList)]
    [.text "a > b".toList, .block "p".toList false false .none [] [.block "p".toList false false .none [] []],
     .tag "textarea".toList false true (some ⟨"t".toList, "<x".toList, .plain⟩) [],
     .tag "input".toList true false .none [(kName, .text "i".toList)]]]

example : (renderTemplates (newGen false genFrame) formTemplate).2 =
    .ok "<form method=\"POST\">a > b<p><p></p></p><textarea name=\"t\">&lt;x</textarea><input name=\"i\"></form>".toList := by decide +kernel

example : FullFrame genFrame ∧ ReadableTemplates false formTemplate := by
  have htag : ∀ n : PStr, (∀ x ∈ n, nameChar x = true) → ReadableTag n false := fun n h => ⟨h, by simp⟩
  have hempty : ReadableKw false [] := ⟨by unfold DictLike; decide, by simp, by simp, by simp [dictGet]⟩
  refine ⟨by unfold FullFrame; decide, ?_⟩
  simp only [formTemplate, ReadableTemplates, ReadableTemplate, and_true]
  refine ⟨htag _ (by decide), ⟨by unfold DictLike; decide, by decide, by simp, by intro v c h; revert h; simp [dictGet]⟩, by decide,
    ⟨htag _ (by decide), hempty, htag _ (by decide), hempty⟩, ⟨htag _ (by decide), hempty⟩, ⟨by decide, by simp⟩,
    ⟨by unfold DictLike; decide, by decide, by simp, by intro v c h; revert h; simp [dictGet, kName]⟩⟩

/-- a paragraph opened twice: the second time `generator.p` is the tag that is open -/
example : ∃ g, TagHistory true genFrame [.got "p".toList 0, .opened 0, .got "p".toList 0] g := by
  have h1 := (TagHistory.new (xml := true) (f := genFrame)).got "p".toList false false
  have h2 := TagHistory.opened .none [] h1 (i := 0) (o := ⟨"p".toList, false, false, .none⟩) rfl
  have h3 := h2.got "p".toList false false
  exact ⟨_, h3⟩

/-- Not so: an opening tag that raises counts as open, so that the next `generator.input` is that tag. -/
theorem C67_failed_open_stays :
    let g0 := (newGen false genFrame).getTag "input".toList false false
    let o : TagObj := ⟨"input".toList, false, false, .none⟩
    let g1 := g0.2.openTag g0.1 o .none [("x".toList, .maybe)]
    let g2 := g1.1.getTag "input".toList true false
    g0.2.objs[g0.1]? = some o ∧ g1.2 = .error .notImplemented ∧ g2.1 = g0.1 ∧
      (g2.2.objs[g2.1]?).map (fun o => (g2.2.callTag g2.1 o .none []).2) = some (.ok "<input></input>".toList) := by
  refine ⟨rfl, by decide +kernel, by decide +kernel, by decide +kernel⟩

/-- Not so: of two tags of one name, one inside the other, closing the inner one closes the tag: `generator.p` is then a new tag, while the
outer `<p>` has not been closed. -/
theorem C67_inner_closes_outer :
    let g0 := (newGen true genFrame).getTag "p".toList false false
    let o : TagObj := ⟨"p".toList, false, false, .none⟩
    let g1 := (g0.2.openTag g0.1 o .none []).1
    let i1 := (g1.getTag "p".toList false false).1
    let g2 := (g1.openTag i1 o .none []).1
    let i2 := (g2.getTag "p".toList false false).1
    let g3 := (g2.closeTag i2 o).1
    i1 = g0.1 ∧ i2 = g0.1 ∧ (g3.getTag "p".toList false false).1 ≠ g0.1 := by
  refine ⟨by decide +kernel, by decide +kernel, by decide +kernel⟩

end

/-! ## C68: `generator.tag` -/

section
variable [Runtime] [Casing]

/-- `generator.tag(name, ...)` and `generator.name(...)` give the same attributes and contents and raise the same, and they give the same
text exactly when there are contents, or the tag is written the same way without any: in XML, if it need not be paired; in HTML, if it has
a closing tag. -/
theorem C68_tag_partial (xml : Bool) {q : PStr × Bool × Bool} (_hq : q ∈ tagProperties) {name : PStr} (hn : Casing.lower name = q.1) (bd : Option Bind) (kw : Attrs)
    (f : OptFrame) :
    (tagMethod xml name bd kw f).1 = (propertyCall xml q bd kw f).1 ∧
    (∀ e, (tagMethod xml name bd kw f).2 = .error e ↔ (propertyCall xml q bd kw f).2 = .error e) ∧
    ∀ a b, (tagMethod xml name bd kw f).2 = .ok a → (propertyCall xml q bd kw f).2 = .ok b →
      ∃ header c, (tagOpen [] q.1 bd kw f).2 = .ok (header, c) ∧ header <+: a ∧ header <+: b ∧
        (a = b ↔ c ≠ [] ∨ (if xml then q.2.2 = false else q.2.1 = false ∨ q.2.2 = true)) := by
  unfold tagMethod propertyCall tagCall
  rw [hn]
  rcases hto : tagOpen [] q.1 bd kw f with ⟨f', e' | ⟨header, c⟩⟩
  · refine ⟨rfl, by simp, ?_⟩
    intro a b h
    cases h
  · refine ⟨rfl, by simp, ?_⟩
    intro a b ha hb
    simp only [Except.ok.injEq] at ha hb
    refine ⟨header, c, rfl, ?_, ?_, ?_⟩
    · rw [← ha]
      split
      · exact List.prefix_append _ _
      · split
        · exact List.prefix_append _ _
        · exact ⟨['>'] ++ c ++ "</".toList ++ q.1 ++ ['>'], by simp⟩
    · rw [← hb]
      split
      · exact List.prefix_append _ _
      · split
        · exact List.prefix_append _ _
        · exact ⟨['>'] ++ c ++ "</".toList ++ q.1 ++ ['>'], by simp⟩
    · obtain ⟨n, d, p⟩ := q
      rw [← ha, ← hb]
      by_cases hc : c = []
      · subst hc
        cases xml <;> cases d <;> cases p <;> simp
      · simp [hc]

/-- Which tags these are: without contents the two differ for `input` in HTML, and for `form`, `textarea`, `select` and `option` in XML. -/
theorem C68_which_tags (xml : Bool) {q : PStr × Bool × Bool} (hq : q ∈ tagProperties) {name : PStr} (hn : Casing.lower name = q.1)
    (bd : Option Bind) (kw : Attrs) (f : OptFrame) (a b : PStr) (ha : (tagMethod xml name bd kw f).2 = .ok a)
    (hb : (propertyCall xml q bd kw f).2 = .ok b) :
    ∃ header c, (tagOpen [] q.1 bd kw f).2 = .ok (header, c) ∧
      (a = b ↔ c ≠ [] ∨ q.1 ∉ (if xml then ["form".toList, "textarea".toList, "select".toList, "option".toList] else ["input".toList])) := by
  obtain ⟨header, c, h1, _, _, h2⟩ := (C68_tag_partial xml hq hn bd kw f).2.2 a b ha hb
  refine ⟨header, c, h1, h2.trans (or_congr_right ?_)⟩
  revert xml
  intro xml _ _ _
  have : ∀ (xml : Bool), ∀ q ∈ tagProperties, ((if xml then q.2.2 = false else q.2.1 = false ∨ q.2.2 = true) ↔
      q.1 ∉ (if xml then ["form".toList, "textarea".toList, "select".toList, "option".toList] else ["input".toList])) := by decide +kernel
  exact this xml q hq

end

section
attribute [local instance] Runtime.ascii Spec.asciiCasing

example : ("select".toList, false, true) ∈ tagProperties ∧ Casing.lower "SELECT".toList = "select".toList := by decide +kernel

/-- Not so: `tag('input')` is not `input()` in HTML, and `tag('textarea')` is not `textarea()` in XML. -/
theorem C68_not_equivalent :
    (tagMethod false "input".toList .none [] genFrame).2 = .ok "<input></input>".toList ∧
    (propertyCall false ("input".toList, true, false) .none [] genFrame).2 = .ok "<input>".toList ∧
    (tagMethod true "textarea".toList .none [] genFrame).2 = .ok "<textarea />".toList ∧
    (propertyCall true ("textarea".toList, false, true) .none [] genFrame).2 = .ok "<textarea></textarea>".toList := by
  refine ⟨by decide +kernel, by decide +kernel, by decide +kernel, by decide +kernel⟩

end

end Flatland
