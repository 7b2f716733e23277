import Verif.Props.RichCycle
import Verif.Props.Submit
/-!
C65 for forms with Compounds and JoinedStrings: a page generated for such a form submits the form.
-/
namespace Flatland
open Spec

section
variable [Runtime] [Casing]

/-- C65.  What is submitted for a page that shows the scalars and JoinedStrings of a form – fields of Compounds included, Compounds themselves not – in any order,
is read as the form that C87 describes. -/
theorem C65_rich_roundtrip {sep : PStr} (hs : GoodSep sep) (s : RSchema) (e : RElem) (hk : RKeyed s) (hw : RWellNamed sep s) (hc : RConforms s e)
    (ht : REach TakesItsText JoinedTakes false s e) {page : List PageCall} {ps : List (PStr × PStr)} (hp : PageShows page ps)
    (hps : ∀ k, valuesFor k ps = valuesFor k (carrying sep [] e)) {f : OptFrame} (hf : FullFrame f) (hon : FillsIn f)
    {outs : List PStr} (h : (renderPage page f).2 = .ok outs) :
    rFromFlat sep s (outs.filterMap submits) = .ok (rBroughtBack false s e) := by
  rw [C65_page hp hf hon h]
  exact C87_page hs s e hk hw hc ht ps hps

/-- one plain input for each of these names and texts -/
def inputsFor (style : TagStyle) (ps : List (PStr × PStr)) : List PageCall :=
  ps.map fun p => ⟨style, "input".toList, some ⟨p.1, p.2, .plain⟩, []⟩

/-- C65.  The simplest page for such a form, one input for each scalar and JoinedString, can always be rendered, and submitting it gives that form. -/
theorem C65_rich_input_page (style : TagStyle) {sep : PStr} (hs : GoodSep sep) (s : RSchema) (e : RElem) (hk : RKeyed s) (hw : RWellNamed sep s) (hc : RConforms s e)
    (ht : REach TakesItsText JoinedTakes false s e) (hn : ∀ p ∈ carrying sep [] e, p.1 ≠ []) {f : OptFrame} (hf : SoundFrame f) (hon : FillsIn f) :
    ∃ outs, (renderPage (inputsFor style (carrying sep [] e)) f).2 = .ok outs ∧
      rFromFlat sep s (outs.filterMap submits) = .ok (rBroughtBack false s e) := by
  have hcon : ∀ p : PStr × PStr, p.1 ≠ [] → TextControl ⟨style, "input".toList, some ⟨p.1, p.2, .plain⟩, []⟩ ⟨p.1, p.2, .plain⟩ := fun p hp =>
    ⟨⟨rfl, hp, fun _ _ _ h => absurd h (by simp), fun _ h => absurd h (by simp), fun _ h => absurd h (by simp)⟩, fun _ h => absurd h (by simp),
      .inl ⟨rfl, .inl fun _ h => absurd h (by simp)⟩⟩
  have key : ∀ l : List (PStr × PStr), (∀ p ∈ l, p.1 ≠ []) → PageShows (inputsFor style l) l := by
    intro l
    induction l with
    | nil => intro _; exact .nil
    | cons p l ih => intro h; exact .text (b := ⟨p.1, p.2, .plain⟩) (hcon p (h p (by simp))) (ih fun q hq => h q (by simp [hq]))
  obtain ⟨outs, h1, _⟩ := C65_renders (page := inputsFor style (carrying sep [] e)) (by
    intro c hm
    obtain ⟨p, hp, rfl⟩ := List.mem_map.1 hm
    exact ⟨_, hcon p (hn p hp)⟩) hf
  exact ⟨outs, h1, C65_rich_roundtrip hs s e hk hw hc ht (key _ hn) (fun _ => rfl) hf.full hon h1⟩

end

/-! ### the hypotheses can be met -/

section
attribute [local instance] Runtime.ascii Spec.asciiCasing
open RichExample

example : ∃ outs, (renderPage (inputsFor xhtml (carrying sep [] elem)) submitFrame).2 = .ok outs ∧
    rFromFlat sep schema (outs.filterMap submits) = .ok (rBroughtBack false schema elem) := by
  have h0 : decimal 0 = ['0'] := by unfold decimal; rfl
  have hc : carrying sep [] elem = [("who".toList, "x".toList), ("tags".toList, "a,b".toList), ("when_y".toList, "2010".toList), ("when_m".toList, "1".toList), ("rows_0".toList, "p,q".toList)] := by
    simp only [carrying, carryingAll, carryingSlots, elem, leaves, leavesKids, h0]
    rfl
  refine C65_rich_input_page xhtml ex_good _ _ ex_keyed ex_named ex_instance ?_ (by rw [hc]; decide) submitFrame_sound.1 submitFrame_sound.2
  have hj : ∀ p u, JoinedTakes p cfg u := fun p u => .inr (C86_joined_safe cfg (.inl (by decide)) (fun _ _ => ⟨true, rfl⟩) u)
  have hp : ∀ p st, TakesItsText p (stringType false) st := fun p st => .inr ⟨true, rfl⟩
  simp [REach, REachAll, schema, elem, tags, when_, part, EachScalarAll, EachScalar, hj, hp]

end

end Flatland
