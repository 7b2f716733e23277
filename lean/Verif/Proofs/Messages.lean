import Verif.Spec.Messages
import Verif.Proofs.Scalars
/-! Lemmas about messages: their truth value, and numbers in plural messages. -/
namespace Flatland
open Flatland.Spec

theorem msg_silent (m : MsgAttr) : m.truth = false ↔ Silent m := by
  unfold Silent
  cases m with
  | none => simp [MsgAttr.truth]
  | callable f => simp [MsgAttr.truth]
  | fixed t => cases t <;> simp [MsgAttr.truth]

theorem msg_says (m : MsgAttr) : m.truth = true ↔ ¬ Silent m := by
  rw [← msg_silent]; simp

variable [Runtime]

theorem intOf_count {v : PyVal} {i : Int} (h : CountOf v i) : intOf v = .ok i := by
  cases h with
  | int => rfl
  | yes => rfl
  | no => rfl
  | text h => simp only [intOf, pyInt_strip, (pyInt_iff _ i).2 h]

theorem intOf_no_numeral {s : PStr} (h : ∀ i, ¬ IntText s i) : intOf (.str s) = .error .value := by
  simp only [intOf, pyInt_strip]
  cases hp : pyInt s with
  | none => rfl
  | some i => exact absurd ((pyInt_iff s i).1 hp) (h i)

end Flatland
