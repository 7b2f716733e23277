import Verif.Proofs.Submit
import Verif.Props.Tree
/-
C65: a page generated for a form submits the form.
-/
namespace Flatland
open Spec

section
variable [Runtime] [Casing]

/-- A text control for an element, if it can be rendered, submits the flattened name of the element and its text. -/
theorem C65_text {c : PageCall} {b : Bind} (hc : TextControl c b) {f : OptFrame} (hf : FullFrame f) (hon : FillsIn f) {out : PStr}
    (h : (tagCall [] c.style c.tag c.bound c.kw f).2 = .ok out) : submits out = some (b.name, b.u) := control_submits hc hf hon h

/-- A checkbox or radio button submits its value exactly if the element has it. -/
theorem C65_box {c : PageCall} {b : Bind} {v : PStr} (hc : BoxControl c b v) {f : OptFrame} (hf : FullFrame f) (hon : FillsIn f) {out : PStr}
    (h : (tagCall [] c.style c.tag c.bound c.kw f).2 = .ok out) :
    (ShowsValue b (.text v) → submits out = some (b.name, v)) ∧ (¬ ShowsValue b (.text v) → submits out = .none) := box_submits hc hf hon h

/-- A page submits what its controls show, in order, whatever other tags are between them. -/
theorem C65_page {page : List PageCall} {ps : List (PStr × PStr)} (hp : PageShows page ps) {f : OptFrame} (hf : FullFrame f) (hon : FillsIn f)
    {outs : List PStr} (h : (renderPage page f).2 = .ok outs) : outs.filterMap submits = ps := page_submits hp hf hon h

/-- A page of text controls can always be rendered. -/
theorem C65_renders {page : List PageCall} (hp : ∀ c ∈ page, ∃ b, TextControl c b) {f : OptFrame} (hf : SoundFrame f) :
    ∃ outs, (renderPage page f).2 = .ok outs ∧ outs.length = page.length := page_total hp hf

/-- Radio buttons for all the values an element may have submit its text once, if it is one of them, else nothing. -/
theorem C65_radio (b : Bind) (hk : ∀ t ms, b.kind ≠ .array t ms) {group : List (PageCall × PStr)} (hn : (group.map Prod.snd).Nodup)
    (hp : ∀ p ∈ group, BoxControl p.1 b p.2) {f : OptFrame} (hf : FullFrame f) (hon : FillsIn f)
    {outs : List PStr} (h : (renderPage (group.map Prod.fst) f).2 = .ok outs) :
    (b.u ∈ group.map Prod.snd → outs.filterMap submits = [(b.name, b.u)]) ∧ (b.u ∉ group.map Prod.snd → outs.filterMap submits = []) := by
  have hsv : ∀ v, ShowsValue b (.text v) ↔ v = b.u := by
    intro v
    unfold ShowsValue
    cases hb : b.kind with
    | array t ms => exact absurd hb (hk t ms)
    | boolean t => simp [IsText]
    | plain => simp [IsText]
  have key : (b.u ∈ group.map Prod.snd → PageShows (group.map Prod.fst) [(b.name, b.u)]) ∧
      (b.u ∉ group.map Prod.snd → PageShows (group.map Prod.fst) []) := by
    clear h
    induction group with
    | nil => exact ⟨fun h => absurd h (by simp), fun _ => .nil⟩
    | cons p group ih =>
      obtain ⟨c, v⟩ := p
      have hc := hp (c, v) (by simp)
      simp only [List.map_cons, List.nodup_cons] at hn ⊢
      obtain ⟨i1, i2⟩ := ih hn.2 (fun p h => hp p (by simp [h]))
      constructor
      · intro hm
        by_cases hv : v = b.u
        · subst hv
          exact .boxOn hc ((hsv _).2 rfl) (i2 hn.1)
        · exact .boxOff hc (fun hh => hv ((hsv _).1 hh)) (i1 ((List.mem_cons.1 hm).resolve_left (Ne.symm hv)))
      · intro hm
        simp only [List.mem_cons, not_or] at hm
        exact .boxOff hc (fun hh => hm.1 ((hsv _).1 hh).symm) (i2 hm.2)
  exact ⟨fun hm => page_submits (key.1 hm) hf hon h, fun hm => page_submits (key.2 hm) hf hon h⟩

/-- What is submitted for a page that shows the scalars of an element, in any order, builds the same tree again, each scalar set from its text. -/
theorem C65_roundtrip {sep : PStr} (hs : GoodSep sep) (s : Schema) (e : Elem) (hk : Keyed s) (hw : WellNamed sep s)
    (hc : Conforms s e) (hcar : Carried false s e) {page : List PageCall} {ps : List (PStr × PStr)} (hp : PageShows page ps)
    (hps : ∀ k, valuesFor k ps = valuesFor k (flatten sep e)) {f : OptFrame} (hf : FullFrame f) (hon : FillsIn f)
    {outs : List PStr} (h : (renderPage page f).2 = .ok outs) :
    fromFlat sep s (outs.filterMap submits) = .ok (restored false s e) := by
  rw [C65_page hp hf hon h, C10_order_irrelevant hs s e hk hw hc hcar ps hps, C09_roundtrip hs s e hk hw hc hcar]

/-- In particular, when every scalar reads its own text back, the element comes back: same structure, names, and scalars. -/
theorem C65_same_element {sep : PStr} (hs : GoodSep sep) (s : Schema) (e : Elem) (hk : Keyed s) (hw : WellNamed sep s)
    (hc : Conforms s e) (hcar : Carried false s e) (hR : EachScalar (ReadsBack SameData) false s e)
    {page : List PageCall} {ps : List (PStr × PStr)} (hp : PageShows page ps)
    (hps : ∀ k, valuesFor k ps = valuesFor k (flatten sep e)) {f : OptFrame} (hf : FullFrame f) (hon : FillsIn f)
    {outs : List PStr} (h : (renderPage page f).2 = .ok outs) :
    ∃ e', fromFlat sep s (outs.filterMap submits) = .ok e' ∧ SameBy SameData e e' := by
  rw [C65_page hp hf hon h, C10_order_irrelevant hs s e hk hw hc hcar ps hps]
  exact C09_same_element hs s e hk hw hc hcar SameData hR

/-- the simplest page for an element: one plain input for each scalar -/
def inputPage (style : TagStyle) (sep : PStr) (e : Elem) : List PageCall :=
  (flatten sep e).map fun p => ⟨style, "input".toList, some ⟨p.1, p.2, .plain⟩, []⟩

/-- The simplest page can always be rendered, and submitting it gives the element back. -/
theorem C65_input_page (style : TagStyle) {sep : PStr} (hs : GoodSep sep) (s : Schema) (e : Elem) (hk : Keyed s) (hw : WellNamed sep s)
    (hc : Conforms s e) (hcar : Carried false s e) (hR : EachScalar (ReadsBack SameData) false s e) (hn : ∀ p ∈ flatten sep e, p.1 ≠ [])
    {f : OptFrame} (hf : SoundFrame f) (hon : FillsIn f) :
    ∃ outs e', (renderPage (inputPage style sep e) f).2 = .ok outs ∧ fromFlat sep s (outs.filterMap submits) = .ok e' ∧ SameBy SameData e e' := by
  have hcon : ∀ p : PStr × PStr, p.1 ≠ [] → TextControl ⟨style, "input".toList, some ⟨p.1, p.2, .plain⟩, []⟩ ⟨p.1, p.2, .plain⟩ := fun p hp =>
    ⟨⟨rfl, hp, fun _ _ _ h => absurd h (by simp), fun _ h => absurd h (by simp), fun _ h => absurd h (by simp)⟩, fun _ h => absurd h (by simp),
      .inl ⟨rfl, .inl fun _ h => absurd h (by simp)⟩⟩
  obtain ⟨outs, h1, _⟩ := C65_renders (page := inputPage style sep e) (by
    intro c hm
    obtain ⟨p, hp, rfl⟩ := List.mem_map.1 hm
    exact ⟨_, hcon p (hn p hp)⟩) hf
  have hp : PageShows (inputPage style sep e) (flatten sep e) := by
    unfold inputPage
    have key : ∀ l : List (PStr × PStr), (∀ p ∈ l, p.1 ≠ []) → PageShows (l.map fun p => ⟨style, "input".toList, some ⟨p.1, p.2, .plain⟩, []⟩) l := by
      intro l
      induction l with
      | nil => intro _; exact .nil
      | cons p l ih => intro h; exact .text (b := ⟨p.1, p.2, .plain⟩) (hcon p (h p (by simp))) (ih fun q hq => h q (by simp [hq]))
    exact key _ hn
  obtain ⟨e', h2, h3⟩ := C65_same_element hs s e hk hw hc hcar hR hp (fun _ => rfl) hf.full hon h1
  exact ⟨outs, e', h1, h2, h3⟩

end

/-! ## Non-vacuity -/

section examples
attribute [local instance] Runtime.ascii Spec.asciiCasing

def submitFrame : OptFrame := dictPut defaultFrame kOrdered (.bool true)

def xhtml : TagStyle := ⟨true, true, false⟩
def pairedXhtml : TagStyle := ⟨true, false, true⟩

/-- an input, a label, a textarea, and two radio buttons -/
def examplePage : List PageCall :=
  [⟨xhtml, "input".toList, some ⟨"o_a".toList, "\"x\" & <y>".toList, .plain⟩, [("class_".toList, .text "k".toList), (kType, .text "text".toList)]⟩,
   ⟨xhtml, "label".toList, some ⟨"o_a".toList, "\"x\" & <y>".toList, .plain⟩, [("contents".toList, .text "A <b>field</b>".toList)]⟩,
   ⟨pairedXhtml, "textarea".toList, some ⟨"o_b".toList, "</textarea><p>".toList, .plain⟩, []⟩,
   ⟨xhtml, "input".toList, some ⟨"o_c".toList, "1".toList, .plain⟩, [(kType, .text "radio".toList), (kValue, .text "0".toList)]⟩,
   ⟨xhtml, "input".toList, some ⟨"o_c".toList, "1".toList, .plain⟩, [(kType, .text "radio".toList), (kValue, .text "1".toList)]⟩]

theorem submitFrame_sound : SoundFrame submitFrame ∧ FillsIn submitFrame := by
  refine ⟨⟨by unfold FullFrame; decide, ⟨"f_".toList, [], by unfold IdFormat; decide⟩, ⟨0, by decide⟩, ⟨true, by decide⟩⟩, ?_⟩
  intro k hk
  simp only [List.mem_cons, List.not_mem_nil, or_false] at hk
  rcases hk with rfl | rfl <;> exact .inr ⟨by decide, .inl (by decide)⟩

local macro "shows_tac" : tactic => `(tactic| first
    | (unfold NotGiven; decide)
    | (unfold IsGiven; decide)
    | (show IsText _ _; unfold IsText; decide)
    | (show ¬ IsText _ _; unfold IsText; decide)
    | (simp [xhtml, kType, kValue]; done)
    | decide)

theorem examplePage_shows : PageShows examplePage
    [("o_a".toList, "\"x\" & <y>".toList), ("o_b".toList, "</textarea><p>".toList), ("o_c".toList, "1".toList)] := by
  unfold examplePage
  apply PageShows.text (b := ⟨"o_a".toList, "\"x\" & <y>".toList, .plain⟩)
  · refine ⟨⟨rfl, ?_, ?_, ?_, ?_⟩, ?_, .inl ⟨rfl, .inr ⟨"text".toList, by decide, ?_⟩⟩⟩ <;> shows_tac
  apply PageShows.other
  · refine ⟨?_, ?_, ?_⟩ <;> shows_tac
  apply PageShows.text (b := ⟨"o_b".toList, "</textarea><p>".toList, .plain⟩)
  · refine ⟨⟨rfl, ?_, ?_, ?_, ?_⟩, ?_, .inr rfl⟩ <;> shows_tac
  apply PageShows.boxOff (b := ⟨"o_c".toList, "1".toList, .plain⟩) (v := "0".toList)
  · refine ⟨⟨rfl, ?_, ?_, ?_, ?_⟩, rfl, .inl ⟨"radio".toList, by decide, ?_, ?_⟩⟩ <;> shows_tac
  · shows_tac
  apply PageShows.boxOn (b := ⟨"o_c".toList, "1".toList, .plain⟩) (v := "1".toList)
  · refine ⟨⟨rfl, ?_, ?_, ?_, ?_⟩, rfl, .inl ⟨"radio".toList, by decide, ?_, ?_⟩⟩ <;> shows_tac
  · shows_tac
  exact .nil

example : ∃ outs, (renderPage examplePage submitFrame).2 = .ok outs ∧
    outs.filterMap submits = [("o_a".toList, "\"x\" & <y>".toList), ("o_b".toList, "</textarea><p>".toList), ("o_c".toList, "1".toList)] :=
  ⟨["<input type=\"text\" name=\"o_a\" value=\"&quot;x&quot; &amp; &lt;y&gt;\" class=\"k\" />".toList, "<label>A <b>field</b></label>".toList,
    "<textarea name=\"o_b\">&lt;/textarea&gt;&lt;p&gt;</textarea>".toList, "<input type=\"radio\" name=\"o_c\" value=\"0\" />".toList,
    "<input type=\"radio\" name=\"o_c\" value=\"1\" checked=\"checked\" />".toList], by decide +kernel, by decide +kernel⟩

theorem ex_names : ∀ p ∈ flatten TreeExample.sep TreeExample.elem, p.1 ≠ [] := by decide +kernel

example :
    ∃ outs e', (renderPage (inputPage xhtml TreeExample.sep TreeExample.elem) submitFrame).2 = .ok outs ∧
      fromFlat TreeExample.sep TreeExample.schema (outs.filterMap submits) = .ok e' ∧ SameBy SameData TreeExample.elem e' :=
  C65_input_page xhtml ex_sep TreeExample.schema TreeExample.elem trivial ex_wellNamed ex_conforms ex_carried ex_readsBack ex_names submitFrame_sound.1 submitFrame_sound.2

/-- an input with a value of its own does not submit the element's -/
theorem C65_own_value : ((tagCall [] xhtml "input".toList (some ⟨"n".toList, "u".toList, .plain⟩) [(kValue, .text "v".toList)] submitFrame).2.map submits) =
    .ok (some ("n".toList, "v".toList)) := by decide +kernel

/-- a password field does not send the value back, so the element is not rebuilt from such a page -/
theorem C65_password : ((tagCall [] xhtml "input".toList (some ⟨"n".toList, "u".toList, .plain⟩) [(kType, .text "password".toList)] submitFrame).2) =
    .ok "<input type=\"password\" name=\"n\" />".toList := by decide +kernel

end examples

end Flatland
