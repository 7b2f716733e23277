import Verif.Spec.Choices
import Verif.Proofs.Parts2
/-! Lemmas about submitted forms with multiple choices (C97, C98). -/
namespace Flatland
open Flatland.Spec

section
variable [Runtime]

theorem field_texts {sep : PStr} {h : Hdr} {mode : DictMode} {po : Policy} {fs : List Schema} {i : Nat} {ps ps' : List FPair}
    (hh : Handed (LeadsInto sep (.dict h mode po fs) (.field i)) ps ps') : ∃ qs, ps' = texts qs := by
  induction hh with
  | nil => exact ⟨[], rfl⟩
  | take hR _ ih =>
    obtain ⟨qs, rfl⟩ := ih
    obtain ⟨_, _, k, _, _, _, _, rfl⟩ := hR
    exact ⟨(k, _) :: qs, rfl⟩
  | skip _ _ ih => exact ih

theorem choiceForm_part {sep : PStr} {s s' : Schema} {ps ps' : List FPair} {way : List Step} {pos : Pos} (hp : PartOf sep s ps way s' ps' pos) :
    ChoiceForm s → (∀ h prune m, s = .array h prune m → ∃ qs, ps = texts qs) → ChoiceForm s' ∧ ∀ h prune m, s' = .array h prune m → ∃ qs, ps' = texts qs := by
  induction hp with
  | here => exact fun h1 h2 => ⟨h1, h2⟩
  | @down s ps a s' ps' _ _ _ _ _ h1 _ h3 _ ih =>
    intro hs _
    cases hs with
    | scalar => cases a <;> simp [partSchema] at h1
    | array => cases a <;> simp [partSchema] at h1
    | dict h mode po fs hall =>
      cases a with
      | row => simp [partSchema] at h1
      | field i =>
        exact ih (hall _ (List.mem_of_getElem? h1)) fun _ _ _ _ => field_texts h3
    | list h prune max m hm hna =>
      cases a with
      | field => simp [partSchema] at h1
      | row i =>
        simp only [partSchema, Option.some.injEq] at h1
        subst h1
        exact ih hm fun h p x e => absurd e (hna h p x)

omit [Runtime] in
theorem texts_inj : ∀ {ps qs : List (PStr × PStr)}, texts ps = texts qs → ps = qs
  | [], [], _ => rfl
  | [], _ :: _, h => by simp [texts] at h
  | _ :: _, [], h => by simp [texts] at h
  | (a, b) :: ps, (c, d) :: qs, h => by
    simp only [texts, List.map_cons, List.cons.injEq, Prod.mk.injEq, Option.some.injEq] at h
    rw [h.1.1, h.1.2, texts_inj h.2]

theorem choice_members (sep : PStr) (h : Hdr) (prune : Bool) (hm : Hdr) (t : ScalarType) (qs : List (PStr × PStr)) :
    qs.filterMap (fun p => memberOf hm t (takenFrom sep h.name hm.name prune p.1 p.2)) = (choices sep h prune hm qs).map (submittedField hm t) := by
  unfold choices
  rw [List.map_filterMap]
  congr 1
  funext p
  cases takenFrom sep h.name hm.name prune p.1 p.2 <;> rfl

end
end Flatland
