import Verif.Proofs.Luhn
/-!
Property theorems C45: the Luhn check (flatland/util/base.py:221-232, flatland/validation/number.py:74-87).
-/
namespace Flatland
open Spec

/-- **C45.** For every non-negative number the loop terminates and answers True exactly when the Luhn criterion
holds. (Partial: negative numbers are excluded, see `C45_negative_diverges`.) -/
theorem C45_luhn_correct_partial (n : Nat) (fuel : Nat) (hf : n < fuel) :
    ∃ b, luhn10 fuel n = some b ∧ (b = true ↔ LuhnOK n) := by
  refine ⟨_, luhnLoop_nat n fuel 0 hf, ?_⟩
  simp [LuhnOK, luhnSum_eq]

/-- **C45 (disagreement).** On a negative number `luhn10` never returns, however long it runs. -/
theorem C45_negative_diverges (n : Int) (hn : n < 0) (fuel : Nat) : luhn10 fuel n = none :=
  luhnLoop_neg fuel n 0 hn

/-- **C45 (single digit errors).** Changing one digit of a number changes a passing number into a failing one:
two numbers whose digit strings differ in exactly one place never both pass. -/
theorem C45_single_digit_error (xs ys : List Nat) (a b : Nat)
    (hx : ∀ d ∈ xs, d < 10) (hy : ∀ d ∈ ys, d < 10) (ha : a < 10) (hb : b < 10) (hab : a ≠ b) :
    ¬ (LuhnOK (valueLSB (xs ++ a :: ys)) ∧ LuhnOK (valueLSB (xs ++ b :: ys))) := by
  rintro ⟨h1, h2⟩
  have mem : ∀ c, c < 10 → ∀ d ∈ xs ++ c :: ys, d < 10 := by
    intro c hc d hd
    rcases List.mem_append.1 hd with h | h
    · exact hx d h
    · rcases List.mem_cons.1 h with rfl | h
      · exact hc
      · exact hy d h
  simp only [LuhnOK, luhnSum_eq] at h1 h2
  rw [luhnFrom_digits_value _ (mem a ha), luhnFrom_append] at h1
  rw [luhnFrom_digits_value _ (mem b hb), luhnFrom_append] at h2
  simp only [luhnFrom] at h1 h2
  exact hab (luhnWeight_inj (i := 0 + xs.length) ha hb (by omega))

/-- Non-vacuity: a standard test number passes, and the same number with one digit changed fails. -/
example : luhn10 20 4111111111111111 = some true ∧ luhn10 20 4111111111111121 = some false := by decide

end Flatland
