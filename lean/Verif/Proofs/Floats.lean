import Verif.Spec.Floats
import Verif.Proofs.Scalars
import Mathlib.Tactic.Linarith
import Mathlib.Tactic.FieldSimp
import Mathlib.Tactic.Positivity
import Mathlib.Tactic.NormNum
import Mathlib.Data.Rat.Floor
/-
Helper lemmas for C85: rounding.
-/
namespace Flatland
open Spec

set_option exponentiation.threshold 1100

theorem pow2_eq (e : ℤ) : pow2 e = (2 : ℚ) ^ e := by
  unfold pow2
  split
  · rename_i h
    obtain ⟨n, rfl⟩ := Int.eq_ofNat_of_zero_le h
    simp
  · rename_i h
    obtain ⟨n, hn⟩ := Int.eq_ofNat_of_zero_le (show 0 ≤ -e by omega)
    have : e = -(n : ℤ) := by omega
    subst this
    simp

theorem pow10_eq (e : ℤ) : pow10 e = (10 : ℚ) ^ e := by
  unfold pow10
  split
  · rename_i h
    obtain ⟨n, rfl⟩ := Int.eq_ofNat_of_zero_le h
    simp
  · rename_i h
    obtain ⟨n, hn⟩ := Int.eq_ofNat_of_zero_le (show 0 ≤ -e by omega)
    have : e = -(n : ℤ) := by omega
    subst this
    simp

theorem two_pos' (e : ℤ) : (0 : ℚ) < 2 ^ e := by positivity

/-! ### rounding to whole numbers -/

theorem floor_bounds {q : ℚ} (hq : 0 ≤ q) : (q.floor.toNat : ℚ) ≤ q ∧ q < q.floor.toNat + 1 := by
  have he : q.floor = ⌊q⌋ := rfl
  have hf : 0 ≤ ⌊q⌋ := Int.floor_nonneg.mpr hq
  obtain ⟨f, hfe⟩ := Int.eq_ofNat_of_zero_le hf
  have h1 := Int.floor_le q
  have h2 := Int.lt_floor_add_one q
  rw [he]
  rw [hfe] at h1 h2 ⊢
  simpa using ⟨h1, h2⟩

theorem roundEven_spec {q : ℚ} (hq : 0 ≤ q) :
    |q - roundEven q| ≤ 1 / 2 ∧ (|q - roundEven q| = 1 / 2 → roundEven q % 2 = 0) := by
  obtain ⟨h1, h2⟩ := floor_bounds hq
  unfold roundEven
  simp only
  generalize q.floor.toNat = f at h1 h2 ⊢
  split
  · rename_i h
    rw [abs_of_nonneg (by linarith)]
    exact ⟨h.le, fun hh => absurd hh h.ne⟩
  · rename_i h
    split
    · rename_i h'
      push_cast
      rw [abs_of_nonpos (by linarith)]
      exact ⟨by linarith, fun hh => absurd hh (by linarith)⟩
    · rename_i h'
      have he : q - f = 1 / 2 := le_antisymm (not_lt.mp h') (not_lt.mp h)
      split
      · rename_i hev
        rw [he]; exact ⟨by norm_num, fun _ => hev⟩
      · rename_i hev
        push_cast
        have : q - (f + 1) = - (1 / 2) := by linarith
        rw [this]
        exact ⟨by norm_num, fun _ => by omega⟩

/-- two whole numbers at most a half away from `q`, and even if it is a half, are the same -/
theorem round_unique {q : ℚ} {n m : ℕ} (hn : |q - n| ≤ 1 / 2) (hn' : |q - n| = 1 / 2 → n % 2 = 0)
    (hm : |q - m| ≤ 1 / 2) (hm' : |q - m| = 1 / 2 → m % 2 = 0) : n = m := by
  obtain ⟨a, b⟩ := abs_le.mp hn
  obtain ⟨c, d⟩ := abs_le.mp hm
  rcases lt_trichotomy n m with h | h | h
  · have hc : (n : ℚ) + 1 ≤ m := by exact_mod_cast h
    have e1 : q - n = 1 / 2 := by linarith
    have e2 : q - m = -(1 / 2) := by linarith
    have x1 := hn' (by rw [e1]; norm_num)
    have x2 := hm' (by rw [e2]; norm_num)
    have hc' : (m : ℚ) = n + 1 := by linarith
    have : m = n + 1 := by exact_mod_cast hc'
    omega
  · exact h
  · have hc : (m : ℚ) + 1 ≤ n := by exact_mod_cast h
    have e1 : q - m = 1 / 2 := by linarith
    have e2 : q - n = -(1 / 2) := by linarith
    have x1 := hm' (by rw [e1]; norm_num)
    have x2 := hn' (by rw [e2]; norm_num)
    have hc' : (n : ℚ) = m + 1 := by linarith
    have : n = m + 1 := by exact_mod_cast hc'
    omega

/-- nothing whole is nearer -/
theorem roundEven_nearest {q : ℚ} (hq : 0 ≤ q) (n : ℕ) : |q - roundEven q| ≤ |q - n| := by
  have h := (roundEven_spec hq).1
  by_cases hn : n = roundEven q
  · rw [hn]
  · by_contra hlt
    push Not at hlt
    have : roundEven q = n := round_unique h (roundEven_spec hq).2 (hlt.le.trans h) (fun he => absurd he (by linarith [hlt.trans_le h] ))
    exact hn this.symm

theorem roundEven_natCast (n : ℕ) : roundEven (n : ℚ) = n :=
  round_unique (roundEven_spec (by positivity)).1 (roundEven_spec (by positivity)).2 (by simp) (by norm_num)

theorem roundEven_ge {q : ℚ} {n : ℕ} (h : (n : ℚ) ≤ q) : n ≤ roundEven q := by
  have hq : 0 ≤ q := le_trans (by positivity) h
  have h1 := roundEven_nearest hq n
  by_contra hlt
  push Not at hlt
  have h2 : (roundEven q : ℚ) + 1 ≤ n := by exact_mod_cast hlt
  rw [abs_of_nonneg (by linarith), abs_of_nonneg (by linarith)] at h1
  linarith

theorem roundEven_le {q : ℚ} {n : ℕ} (hq : 0 ≤ q) (h : q ≤ n) : roundEven q ≤ n := by
  have h1 := roundEven_nearest hq n
  by_contra hlt
  push Not at hlt
  have h2 : (n : ℚ) + 1 ≤ roundEven q := by exact_mod_cast hlt
  rw [abs_of_nonpos (by linarith), abs_of_nonpos (by linarith)] at h1
  linarith

/-! ### floats -/

theorem binade_spec {q : ℚ} (hq : 0 < q) : (2 : ℚ) ^ binade q ≤ q ∧ q < 2 ^ (binade q + 1) := by
  have hnum : 0 < q.num := Rat.num_pos.mpr hq
  have hn0 : q.num.natAbs ≠ 0 := by omega
  have hd0 : q.den ≠ 0 := q.den_nz
  have a1 : (2 : ℚ) ^ (q.num.natAbs.log2 : ℤ) ≤ q.num.natAbs := by
    have := Nat.log2_self_le hn0
    rw [zpow_natCast]; exact_mod_cast this
  have a2 : (q.num.natAbs : ℚ) < 2 ^ ((q.num.natAbs.log2 : ℤ) + 1) := by
    have := @Nat.lt_log2_self q.num.natAbs
    have : (q.num.natAbs : ℚ) < 2 ^ (q.num.natAbs.log2 + 1) := by exact_mod_cast this
    exact_mod_cast this
  have b1 : (2 : ℚ) ^ (q.den.log2 : ℤ) ≤ q.den := by
    have := Nat.log2_self_le hd0
    rw [zpow_natCast]; exact_mod_cast this
  have b2 : (q.den : ℚ) < 2 ^ ((q.den.log2 : ℤ) + 1) := by
    have := @Nat.lt_log2_self q.den
    have : (q.den : ℚ) < 2 ^ (q.den.log2 + 1) := by exact_mod_cast this
    exact_mod_cast this
  have hqe : q = (q.num.natAbs : ℚ) / q.den := by
    have h1 : ((q.num.natAbs : ℕ) : ℚ) = (q.num : ℚ) := by
      have : ((q.num.natAbs : ℕ) : ℤ) = q.num := by omega
      have := congrArg (Int.cast (R := ℚ)) this
      rwa [Int.cast_natCast] at this
    rw [h1, Rat.num_div_den]
  have hdpos : (0 : ℚ) < q.den := by positivity
  have hlow : (2 : ℚ) ^ ((q.num.natAbs.log2 : ℤ) - q.den.log2 - 1) ≤ q := by
    rw [hqe, le_div_iff₀ hdpos]
    rw [← hqe]
    calc (2 : ℚ) ^ ((q.num.natAbs.log2 : ℤ) - q.den.log2 - 1) * q.den
        ≤ 2 ^ ((q.num.natAbs.log2 : ℤ) - q.den.log2 - 1) * 2 ^ ((q.den.log2 : ℤ) + 1) := by
          apply mul_le_mul_of_nonneg_left b2.le (by positivity)
      _ = 2 ^ (q.num.natAbs.log2 : ℤ) := by
          rw [← zpow_add₀ (by norm_num)]; congr 1; ring
      _ ≤ _ := a1
  have hhigh : q < (2 : ℚ) ^ ((q.num.natAbs.log2 : ℤ) - q.den.log2 + 1) := by
    rw [hqe, div_lt_iff₀ hdpos]
    rw [← hqe]
    calc (q.num.natAbs : ℚ) < 2 ^ ((q.num.natAbs.log2 : ℤ) + 1) := a2
      _ = 2 ^ ((q.num.natAbs.log2 : ℤ) - q.den.log2 + 1) * 2 ^ (q.den.log2 : ℤ) := by
          rw [← zpow_add₀ (by norm_num)]; congr 1; ring
      _ ≤ _ := mul_le_mul_of_nonneg_left b1 (by positivity)
  unfold binade
  simp only [pow2_eq]
  split
  · rename_i h; exact ⟨h, hhigh⟩
  · rename_i h
    exact ⟨hlow, by simpa using not_le.mp h⟩

/-- the exponent of the last binary digit that is kept -/
theorem toDouble_parts {q : ℚ} (hq : 0 < q) : ∃ (e : ℤ) (r : ℕ), -1074 ≤ e ∧ r = roundEven (q / 2 ^ e) ∧ (r : ℤ) ≤ 2 ^ 53 ∧
    (e = -1074 ∨ ((2 : ℚ) ^ (e + 52) ≤ q ∧ 2 ^ 52 ≤ r)) ∧ q < 2 ^ (e + 53) ∧
    toDouble q = if (2 : ℚ) ^ (1024 : ℤ) ≤ r * 2 ^ e then none else some ((r : ℚ) * 2 ^ e) := by
  obtain ⟨h1, h2⟩ := binade_spec hq
  refine ⟨max (binade q - 52) (-1074), roundEven (q / 2 ^ (max (binade q - 52) (-1074))), le_max_right _ _, rfl, ?_, ?_, ?_, ?_⟩
  · have hlt : q / 2 ^ (max (binade q - 52) (-1074)) ≤ ((2 ^ 53 : ℕ) : ℚ) := by
      rw [div_le_iff₀ (two_pos' _)]
      calc q ≤ 2 ^ (binade q + 1) := h2.le
        _ ≤ 2 ^ ((53 : ℤ) + max (binade q - 52) (-1074)) := zpow_le_zpow_right₀ (by norm_num) (by omega)
        _ = _ := by rw [zpow_add₀ (by norm_num)]; norm_num
    have := roundEven_le (div_nonneg hq.le (two_pos' _).le) hlt
    exact_mod_cast this
  · by_cases hb : binade q - 52 ≤ -1074
    · left; omega
    · right
      have hm : max (binade q - 52) (-1074) = binade q - 52 := max_eq_left (by omega)
      rw [hm]
      refine ⟨by simpa using h1, ?_⟩
      have : ((2 ^ 52 : ℕ) : ℚ) ≤ q / 2 ^ (binade q - 52) := by
        rw [le_div_iff₀ (two_pos' _)]
        calc ((2 ^ 52 : ℕ) : ℚ) * 2 ^ (binade q - 52) = 2 ^ ((52 : ℤ) + (binade q - 52)) := by rw [zpow_add₀ (by norm_num)]; norm_num
          _ = 2 ^ binade q := by congr 1; ring
          _ ≤ q := h1
      exact roundEven_ge this
  · exact lt_of_lt_of_le h2 (zpow_le_zpow_right₀ (by norm_num) (by omega))
  · unfold toDouble
    simp only [hq.ne', if_false, pow2_eq]

theorem toDouble_none {q : ℚ} (hq : 0 ≤ q) : toDouble q = none ↔ TooLarge q := by
  unfold TooLarge
  rcases hq.eq_or_lt with h0 | hq
  · subst h0
    constructor
    · intro h; simp [toDouble] at h
    · intro h; norm_num at h
  obtain ⟨e, r, he, hr, hr53, hcase, hlt, hd⟩ := toDouble_parts hq
  have hpe := two_pos' e
  have hq2 : q / 2 ^ e * 2 ^ e = q := div_mul_cancel₀ _ hpe.ne'
  obtain ⟨hs1, hs2⟩ := roundEven_spec (div_nonneg hq.le hpe.le)
  rw [← hr] at hs1 hs2
  rw [hd]
  constructor
  · intro h
    split at h
    · rename_i hbig
      by_contra hsmall
      push Not at hsmall
      have hq1 : q < 2 ^ (1024 : ℤ) := by
        refine hsmall.trans ?_
        norm_num
      have he971 : e ≤ 971 := by
        by_contra hgt
        push Not at hgt
        rcases hcase with h | ⟨h, _⟩
        · omega
        · have : (2 : ℚ) ^ (e + 52) < 2 ^ (1024 : ℤ) := lt_of_le_of_lt h hq1
          have := (zpow_lt_zpow_iff_right₀ (by norm_num : (1 : ℚ) < 2)).mp this
          omega
      have hle : (2 : ℚ) ^ e ≤ 2 ^ (971 : ℤ) := zpow_le_zpow_right₀ (by norm_num) he971
      have hup : (r : ℚ) * 2 ^ e ≤ q + 2 ^ e / 2 := by
        have := (abs_le.mp hs1).1
        have h3 : (r : ℚ) ≤ q / 2 ^ e + 1 / 2 := by linarith
        have := mul_le_mul_of_nonneg_right h3 hpe.le
        rw [add_mul, hq2] at this
        linarith
      have : (2 : ℚ) ^ (1024 : ℤ) < 2 ^ (1024 : ℤ) := by
        calc (2 : ℚ) ^ (1024 : ℤ) ≤ r * 2 ^ e := hbig
          _ ≤ q + 2 ^ e / 2 := hup
          _ ≤ q + 2 ^ (971 : ℤ) / 2 := by linarith
          _ < (2 : ℚ) ^ 1024 - 2 ^ 970 + 2 ^ (971 : ℤ) / 2 := by linarith
          _ = 2 ^ (1024 : ℤ) := by norm_num
      exact absurd this (lt_irrefl _)
    · simp at h
  · intro hbig
    rw [if_pos]
    have he971 : 971 ≤ e := by
      by_contra hgt
      push Not at hgt
      have h1 : q < 2 ^ (1023 : ℤ) := lt_of_lt_of_le hlt (zpow_le_zpow_right₀ (by norm_num) (by omega))
      have h2 : (2 : ℚ) ^ (1023 : ℤ) ≤ 2 ^ 1024 - 2 ^ 970 := by norm_num
      linarith
    rcases hcase with h | ⟨h, hr52⟩
    · omega
    rcases he971.eq_or_lt with h | h
    · subst h
      have hge : ((2 ^ 53 : ℕ) : ℚ) - 1 / 2 ≤ q / 2 ^ (971 : ℤ) := by
        rw [le_div_iff₀ hpe]
        refine le_trans ?_ hbig
        norm_num
      generalize q / 2 ^ (971 : ℤ) = z at hge hs1 hs2
      have : 2 ^ 53 ≤ r := by
        by_contra hlt'
        push Not at hlt'
        have hc : (r : ℚ) + 1 ≤ 9007199254740992 := by exact_mod_cast (by omega : r + 1 ≤ 9007199254740992)
        have hge : (9007199254740992 : ℚ) - 1 / 2 ≤ z := by norm_num at hge ⊢; exact hge
        have hh : |z - r| = 1 / 2 := by
          refine le_antisymm hs1 ?_
          refine le_trans ?_ (le_abs_self _)
          linarith
        have hev := hs2 hh
        have h4 := (abs_le.mp hs1).2
        have hc' : (r : ℚ) + 1 = 9007199254740992 := by linarith
        have : r + 1 = 9007199254740992 := by exact_mod_cast hc'
        omega
      have hc : ((2 ^ 53 : ℕ) : ℚ) ≤ r := by exact_mod_cast this
      calc (2 : ℚ) ^ (1024 : ℤ) = ((2 ^ 53 : ℕ) : ℚ) * 2 ^ (971 : ℤ) := by norm_num
        _ ≤ _ := mul_le_mul_of_nonneg_right hc hpe.le
    · have hc : ((2 ^ 52 : ℕ) : ℚ) ≤ r := by exact_mod_cast hr52
      calc (2 : ℚ) ^ (1024 : ℤ) = ((2 ^ 52 : ℕ) : ℚ) * 2 ^ (972 : ℤ) := by norm_num
        _ ≤ ((2 ^ 52 : ℕ) : ℚ) * 2 ^ e := mul_le_mul_of_nonneg_left (zpow_le_zpow_right₀ (by norm_num) (by omega)) (by positivity)
        _ ≤ _ := mul_le_mul_of_nonneg_right hc hpe.le

/-- a float from 53 binary digits or one more -/
theorem isDouble_of {e : ℤ} {r : ℕ} (he : -1074 ≤ e) (hr : (r : ℤ) ≤ 2 ^ 53) (hcase : e = -1074 ∨ 2 ^ 52 ≤ r)
    (hlt : (r : ℚ) * 2 ^ e < 2 ^ (1024 : ℤ)) : IsDouble (r * 2 ^ e) := by
  have he971 : 2 ^ 52 ≤ r → e ≤ 971 := by
    intro h52
    have hc : ((2 ^ 52 : ℕ) : ℚ) ≤ r := by exact_mod_cast h52
    have : (2 : ℚ) ^ (52 + e) < 2 ^ (1024 : ℤ) := by
      refine lt_of_le_of_lt ?_ hlt
      rw [zpow_add₀ (by norm_num)]
      refine mul_le_mul_of_nonneg_right ?_ (two_pos' _).le
      refine le_trans ?_ hc
      norm_num
    have := (zpow_lt_zpow_iff_right₀ (by norm_num : (1 : ℚ) < 2)).mp this
    omega
  by_cases h : r < 2 ^ 53
  · refine ⟨r, e, h, he, ?_, rfl⟩
    rcases hcase with h | h
    · omega
    · exact he971 h
  · have hr' : r = 2 ^ 53 := by omega
    subst hr'
    refine ⟨2 ^ 52, e + 1, by norm_num, by omega, ?_, ?_⟩
    · have : (2 : ℚ) ^ (53 + e) < 2 ^ (1024 : ℤ) := by
        refine lt_of_le_of_lt ?_ hlt
        rw [zpow_add₀ (by norm_num)]
        refine mul_le_mul_of_nonneg_right ?_ (two_pos' _).le
        norm_num
      have := (zpow_lt_zpow_iff_right₀ (by norm_num : (1 : ℚ) < 2)).mp this
      omega
    · rw [zpow_add₀ (by norm_num)]; push_cast; ring

theorem toDouble_nearest {q d : ℚ} (hq : 0 ≤ q) (h : toDouble q = some d) : NearestDouble q d := by
  rcases hq.eq_or_lt with h0 | hq
  · subst h0
    have : d = 0 := by simpa [toDouble] using h.symm
    subst this
    refine ⟨⟨0, 0, by norm_num, by norm_num, by norm_num, by norm_num⟩, fun d' _ => by simp, fun d' _ _ he => ⟨0, by simp⟩⟩
  obtain ⟨e, r, he, hr, hr53, hcase, hlt, hd⟩ := toDouble_parts hq
  have hpe := two_pos' e
  have hq2 : q / 2 ^ e * 2 ^ e = q := div_mul_cancel₀ _ hpe.ne'
  have hqn : 0 ≤ q / 2 ^ e := div_nonneg hq.le hpe.le
  obtain ⟨hs1, hs2⟩ := roundEven_spec hqn
  rw [hd] at h
  split at h
  · simp at h
  rename_i hsm
  push Not at hsm
  have hde : d = r * 2 ^ e := by simpa using h.symm
  subst hde
  -- the distance from a multiple of the step
  have hdist : ∀ n : ℕ, |(n : ℚ) * 2 ^ e - q| = |q / 2 ^ e - n| * 2 ^ e := by
    intro n
    rw [abs_sub_comm, ← abs_of_pos hpe, ← abs_mul, abs_of_pos hpe, sub_mul, hq2]
  have hgrid : ∀ n : ℕ, |(r : ℚ) * 2 ^ e - q| ≤ |(n : ℚ) * 2 ^ e - q| := by
    intro n
    rw [hdist, hdist]
    refine mul_le_mul_of_nonneg_right ?_ hpe.le
    rw [hr]
    exact roundEven_nearest hqn n
  -- a float is a multiple of the step, or strictly further than one
  have hkey : ∀ d', IsDouble d' → (∃ n : ℕ, d' = n * 2 ^ e) ∨ |(r : ℚ) * 2 ^ e - q| < |d' - q| := by
    rintro d' ⟨m', e', hm', he', he'', rfl⟩
    by_cases hee : e ≤ e'
    · left
      refine ⟨m' * 2 ^ (e' - e).toNat, ?_⟩
      push_cast
      rw [mul_assoc, ← zpow_natCast, ← zpow_add₀ (by norm_num)]
      congr 2
      omega
    · right
      push Not at hee
      rcases hcase with hc | ⟨hc, hr52⟩
      · omega
      have hm : (m' : ℚ) < 2 ^ (53 : ℤ) := by
        have : (m' : ℚ) < ((2 ^ 53 : ℕ) : ℚ) := by exact_mod_cast hm'
        refine this.trans_le ?_
        norm_num
      have hlt' : (m' : ℚ) * 2 ^ e' < 2 ^ (e + 52) := by
        calc (m' : ℚ) * 2 ^ e' < 2 ^ (53 : ℤ) * 2 ^ e' := mul_lt_mul_of_pos_right hm (two_pos' _)
          _ = 2 ^ (53 + e') := by rw [zpow_add₀ (by norm_num)]
          _ ≤ 2 ^ (e + 52) := zpow_le_zpow_right₀ (by norm_num) (by omega)
      refine lt_of_le_of_lt (hgrid (2 ^ 52)) ?_
      have hc52 : (((2 ^ 52 : ℕ)) : ℚ) * 2 ^ e = 2 ^ (e + 52) := by
        rw [zpow_add₀ (by norm_num), mul_comm]; norm_num
      rw [hc52, abs_of_nonpos (by linarith), abs_of_nonpos (by linarith)]
      linarith
  refine ⟨isDouble_of he hr53 (hcase.imp id fun h => h.2) hsm, ?_, ?_⟩
  · intro d' hd'
    rcases hkey d' hd' with ⟨n, rfl⟩ | hl
    · exact hgrid n
    · exact hl.le
  · intro d' hd' hne heq
    rcases hkey d' hd' with ⟨n, rfl⟩ | hl
    · rw [hdist, hdist] at heq
      have heq' : |q / 2 ^ e - n| = |q / 2 ^ e - r| := mul_right_cancel₀ hpe.ne' heq
      have hnr : n ≠ r := fun hh => hne (by rw [hh])
      rw [← hr] at hs1 hs2
      have hhalf : |q / 2 ^ e - r| = 1 / 2 := by
        by_contra hh
        exact hnr (round_unique (heq' ▸ hs1) (fun h2 => absurd (heq' ▸ h2) hh) hs1 hs2)
      have hev := hs2 hhalf
      have hdiff : |(r : ℚ) - n| = 1 := by
        have h1 : |(r : ℚ) - n| ≤ 1 := by
          have : (r : ℚ) - n = (q / 2 ^ e - n) - (q / 2 ^ e - r) := by ring
          rw [this]
          refine (abs_sub _ _).trans ?_
          rw [heq', hhalf]; norm_num
        have h2 : (1 : ℚ) ≤ |(r : ℚ) - n| := by
          have : (1 : ℤ) ≤ |(r : ℤ) - n| := Int.one_le_abs (by omega)
          exact_mod_cast this
        exact le_antisymm h1 h2
      refine ⟨r / 2, ?_⟩
      rw [← sub_mul, abs_mul, hdiff, abs_of_pos hpe, one_mul]
      have : ((r / 2 : ℕ) : ℚ) * 2 = r := by
        have : r / 2 * 2 = r := by omega
        exact_mod_cast this
      rw [mul_comm 2, this]
    · exact absurd heq hl.ne'

theorem isDouble_nonneg {d : ℚ} (h : IsDouble d) : 0 ≤ d := by
  obtain ⟨m, e, _, _, _, rfl⟩ := h; positivity

theorem isDouble_le {d : ℚ} (h : IsDouble d) : d ≤ 2 ^ 1024 - 2 ^ 971 := by
  obtain ⟨m, e, hm, _, he, rfl⟩ := h
  have h1 : (m : ℚ) ≤ ((2 ^ 53 - 1 : ℕ) : ℚ) := by exact_mod_cast (by omega : m ≤ 2 ^ 53 - 1)
  have h2 : (2 : ℚ) ^ e ≤ 2 ^ (971 : ℤ) := zpow_le_zpow_right₀ (by norm_num) he
  calc (m : ℚ) * 2 ^ e ≤ ((2 ^ 53 - 1 : ℕ) : ℚ) * 2 ^ (971 : ℤ) := mul_le_mul h1 h2 (two_pos' _).le (by positivity)
    _ = _ := by norm_num

/-- a float is its own float -/
theorem toDouble_self {d : ℚ} (h : IsDouble d) : toDouble d = some d := by
  have h0 := isDouble_nonneg h
  cases hd : toDouble d with
  | none =>
    have := (toDouble_none h0).mp hd
    have h2 := isDouble_le h
    have h3 : (2 : ℚ) ^ 1024 - 2 ^ 971 < 2 ^ 1024 - 2 ^ 970 := by norm_num
    exact absurd (h3.trans_le this) (not_lt.mpr h2)
  | some x =>
    have := (toDouble_nearest h0 hd).2.1 d h
    simp only [sub_self, abs_zero] at this
    have := abs_nonpos_iff.mp this
    rw [sub_eq_zero.mp this]

/-! ### fixed places -/

/-- The text with `k` places of a float, read back as a float, has the same text. -/
theorem fixed_settles (k : ℕ) {x : ℚ} (hx : IsDouble x) :
    ∃ y, toDouble (roundEven (x * 10 ^ k) * ((10 : ℚ) ^ k)⁻¹) = some y ∧ IsDouble y ∧ roundEven (y * 10 ^ k) = roundEven (x * 10 ^ k) := by
  have h0 := isDouble_nonneg hx
  have hk : (0 : ℚ) < 10 ^ k := by positivity
  have hk1 : (1 : ℚ) ≤ 10 ^ k := one_le_pow₀ (by norm_num)
  obtain ⟨hs1, hs2⟩ := roundEven_spec (mul_nonneg h0 hk.le)
  generalize hN : roundEven (x * 10 ^ k) = N at hs1 hs2 ⊢
  have hT0 : (0 : ℚ) ≤ N * ((10 : ℚ) ^ k)⁻¹ := by positivity
  have hTk : (N * ((10 : ℚ) ^ k)⁻¹) * 10 ^ k = N := by field_simp
  generalize hT : N * ((10 : ℚ) ^ k)⁻¹ = T at hT0 hTk ⊢
  have hxT : |x - T| * 10 ^ k = |x * 10 ^ k - N| := by
    rw [← hTk, ← sub_mul, abs_mul, abs_of_pos hk]
  cases hy : toDouble T with
  | none =>
    have hbig := (toDouble_none hT0).mp hy
    unfold TooLarge at hbig
    have hle := isDouble_le hx
    have h1 : |x - T| ≤ 1 / 2 := by
      have : |x - T| ≤ |x - T| * 10 ^ k := le_mul_of_one_le_right (abs_nonneg _) hk1
      linarith
    have h2 := (abs_le.mp h1).1
    have h3 : (2 : ℚ) ^ 1024 - 2 ^ 971 + 1 / 2 < 2 ^ 1024 - 2 ^ 970 := by norm_num
    linarith
  | some y =>
    have hn := toDouble_nearest hT0 hy
    refine ⟨y, rfl, hn.1, ?_⟩
    have h1 : |y - T| ≤ |x - T| := hn.2.1 x hx
    have hyT : |y - T| * 10 ^ k = |y * 10 ^ k - N| := by
      rw [← hTk, ← sub_mul, abs_mul, abs_of_pos hk]
    have h2 : |y * 10 ^ k - N| ≤ |x * 10 ^ k - N| := by
      rw [← hxT, ← hyT]; exact mul_le_mul_of_nonneg_right h1 hk.le
    obtain ⟨a, b⟩ := roundEven_spec (mul_nonneg (isDouble_nonneg hn.1) hk.le)
    exact round_unique a b (h2.trans hs1) fun he => hs2 (le_antisymm hs1 (he ▸ h2))

end Flatland
