import Verif.Model.Trool
/-
Three-valued logic, independently: false < maybe < true; and = minimum, or = maximum, not = reversal.
-/
namespace Flatland.Spec
open Flatland

/-- the three truth values as 0, 1, 2 -/
def rank : Operand → Option Nat
  | .bool false => some 0
  | .maybe => some 1
  | .bool true => some 2
  | .other _ => .none

/-- the words for on, off, in lower case -/
def onWords : List PStr := ["1".toList, "true".toList, "t".toList, "on".toList, "yes".toList]
def offWords : List PStr := ["0".toList, "false".toList, "nil".toList, "off".toList, "no".toList]

/-- ASCII lower-casing, one instance of `Casing` -/
@[reducible] def asciiCasing : Casing where
  lower s := s.map fun c => if 65 ≤ c.toNat ∧ c.toNat ≤ 90 then Char.ofNat (c.toNat + 32) else c
  idem := by
    intro s
    simp only [List.map_map]
    apply List.map_congr_left
    intro c _
    simp only [Function.comp]
    by_cases h : 65 ≤ c.toNat ∧ c.toNat ≤ 90
    · have hv : (c.toNat + 32).isValidChar := by left; omega
      have : (Char.ofNat (c.toNat + 32)).toNat = c.toNat + 32 := by
        rw [Char.ofNat, dif_pos hv]; rfl
      rw [if_pos h, if_neg (by omega)]
    · rw [if_neg h, if_neg h]
  ascii := fun _ _ => rfl

end Flatland.Spec
