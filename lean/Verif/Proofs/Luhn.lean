import Verif.Spec.CreditCard
/-! Helper lemmas for the Luhn checksum. -/
namespace Flatland
open Spec

/-- recursive form of the Luhn sum starting at position `i` -/
def luhnFrom : Nat → List Nat → Nat
  | _, [] => 0
  | i, d :: ds => luhnWeight i d + luhnFrom (i + 1) ds

theorem sum_mapIdx_luhn (ds : List Nat) (i : Nat) :
    (ds.mapIdx fun j d => luhnWeight (i + j) d).sum = luhnFrom i ds := by
  induction ds generalizing i with
  | nil => rfl
  | cons d ds ih =>
    simp only [List.mapIdx_cons, List.sum_cons, luhnFrom, Nat.add_zero]
    rw [← ih (i + 1)]
    congr 2
    congr 1; funext j d; congr 1; omega

theorem luhnSum_eq (ds : List Nat) : luhnSum ds = luhnFrom 0 ds := by
  rw [← sum_mapIdx_luhn]; simp [luhnSum]

theorem luhnWeight_add_two (i d : Nat) : luhnWeight (i + 2) d = luhnWeight i d := by
  simp [luhnWeight]

theorem luhnFrom_add_two (i : Nat) (ds : List Nat) : luhnFrom (i + 2) ds = luhnFrom i ds := by
  induction ds generalizing i with
  | nil => rfl
  | cons d ds ih => simp only [luhnFrom, luhnWeight_add_two]; rw [show i + 2 + 1 = (i + 1) + 2 by omega, ih]

theorem digitsLSB_zero : digitsLSB 0 = [] := by rw [digitsLSB]; simp

theorem digitsLSB_pos {n : Nat} (h : n ≠ 0) : digitsLSB n = n % 10 :: digitsLSB (n / 10) := by
  rw [digitsLSB]; simp [h]

theorem luhnLoop_nat (n : Nat) : ∀ (fuel : Nat) (s : Nat), n < fuel →
    luhnLoop fuel ((n : Int), (s : Int)) = some ((s + luhnFrom 0 (digitsLSB n)) % 10 == 0) := by
  induction n using Nat.strongRecOn with
  | ind n ih =>
    intro fuel s hf
    obtain ⟨fuel, rfl⟩ : ∃ k, fuel = k + 1 := ⟨fuel - 1, by omega⟩
    by_cases hn : n = 0
    · subst hn
      simp [luhnLoop, digitsLSB_zero, luhnFrom]
      rw [Bool.eq_iff_iff]; simp; omega
    · have hstep : luhnStep ((n : Int), (s : Int)) =
          (((n / 100 : Nat) : Int), ((s + (luhnWeight 0 (n % 10) + luhnWeight 1 (n / 10 % 10)) : Nat) : Int)) := by
        simp only [luhnStep, luhnWeight]
        rw [Prod.mk.injEq]
        refine ⟨by omega, ?_⟩
        simp only [if_true]
        rw [if_neg (by omega)]
        split <;> omega
      have hne : ¬ ((n : Int) = 0) := by omega
      simp only [luhnLoop, hne, if_false]
      rw [hstep, ih (n / 100) (by omega) fuel _ (by omega)]
      congr 1
      have : luhnFrom 0 (digitsLSB n) =
          luhnWeight 0 (n % 10) + luhnWeight 1 (n / 10 % 10) + luhnFrom 0 (digitsLSB (n / 100)) := by
        rw [digitsLSB_pos hn]
        by_cases hn' : n / 10 = 0
        · have h100 : n / 100 = 0 := by omega
          rw [hn', h100, digitsLSB_zero]
          simp [luhnFrom, luhnWeight]
        · rw [digitsLSB_pos hn']
          simp only [luhnFrom]
          rw [show n / 10 / 10 = n / 100 by omega, luhnFrom_add_two, Nat.zero_add]
          omega
      rw [this]
      rw [show s + (luhnWeight 0 (n % 10) + luhnWeight 1 (n / 10 % 10)) + luhnFrom 0 (digitsLSB (n / 100)) =
        s + (luhnWeight 0 (n % 10) + luhnWeight 1 (n / 10 % 10) + luhnFrom 0 (digitsLSB (n / 100))) by omega]

theorem luhnLoop_neg (fuel : Nat) : ∀ (n s : Int), n < 0 → luhnLoop fuel (n, s) = none := by
  induction fuel with
  | zero => intros; rfl
  | succ k ih =>
    intro n s hn
    have hne : ¬ n = 0 := by omega
    simp only [luhnLoop, hne, if_false]
    apply ih
    omega

theorem luhnFrom_digits_value (ds : List Nat) (h : ∀ d ∈ ds, d < 10) (i : Nat) :
    luhnFrom i (digitsLSB (valueLSB ds)) = luhnFrom i ds := by
  induction ds generalizing i with
  | nil => rw [valueLSB, digitsLSB_zero]
  | cons d ds ih =>
    have hd : d < 10 := h d (by simp)
    have ih' := ih (fun d hd => h d (by simp [hd])) (i + 1)
    simp only [valueLSB]
    by_cases hz : d + 10 * valueLSB ds = 0
    · have h1 : d = 0 := by omega
      have h2 : valueLSB ds = 0 := by omega
      rw [hz, digitsLSB_zero]
      rw [h2, digitsLSB_zero] at ih'
      subst h1
      simp only [luhnFrom] at ih' ⊢
      rw [← ih']; simp [luhnWeight]
    · rw [digitsLSB_pos hz, show (d + 10 * valueLSB ds) % 10 = d by omega,
        show (d + 10 * valueLSB ds) / 10 = valueLSB ds by omega]
      simp only [luhnFrom, ih']

theorem luhnFrom_append (i : Nat) (xs ys : List Nat) :
    luhnFrom i (xs ++ ys) = luhnFrom i xs + luhnFrom (i + xs.length) ys := by
  induction xs generalizing i with
  | nil => simp [luhnFrom]
  | cons x xs ih =>
    simp only [List.cons_append, luhnFrom, ih, List.length_cons]
    rw [show i + 1 + xs.length = i + (xs.length + 1) by omega]; omega

theorem luhnWeight_inj {i a b : Nat} (ha : a < 10) (hb : b < 10) (h : luhnWeight i a % 10 = luhnWeight i b % 10) : a = b := by
  unfold luhnWeight at h
  split at h
  · omega
  · split at h <;> split at h <;> omega

end Flatland
