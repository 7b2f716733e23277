import Verif.Spec.CreditCard
import Verif.Proofs.Scalars
/-! Helper lemmas for credit card numbers. -/
namespace Flatland
open Spec

theorem isAsciiDigit_iff (c : Char) : isAsciiDigit c = true ↔ c ∈ digitSigns := by
  constructor
  · intro h
    simp only [isAsciiDigit, Bool.and_eq_true, decide_eq_true_eq] at h
    have h0 : ∀ n : Fin 58, 48 ≤ n.val → Char.ofNat n ∈ digitSigns := by decide
    have := h0 ⟨c.toNat, by omega⟩ h.1
    simpa [Char.ofNat_toNat] using this
  · intro h
    have h0 : ∀ c ∈ digitSigns, isAsciiDigit c = true := by decide
    exact h0 c h
theorem ascii_filter (s : PStr) : s.filter isAsciiDigit = s.filter fun c => decide (c ∈ digitSigns) := by
  congr 1
  funext c
  rw [Bool.eq_iff_iff, isAsciiDigit_iff, decide_eq_true_eq]

theorem decimal_digits (n : Nat) : ∃ ds : List Nat, decimal n = ds.map digitChar ∧ (∀ d ∈ ds, d < 10) ∧
    placeValue ds = n ∧ ∃ d ds', ds = d :: ds' ∧ (n ≠ 0 → d ≠ 0) := by
  induction n using Nat.strongRecOn with
  | ind n ih =>
    by_cases h : n < 10
    · exact ⟨[n], by simp [decimal_lt h], by simp [h], by simp [placeValue], n, [], rfl, fun h => h⟩
    · obtain ⟨ds, h1, h2, h3, d, ds', h4, h5⟩ := ih (n / 10) (by omega)
      refine ⟨ds ++ [n % 10], ?_, ?_, ?_, d, ds' ++ [n % 10], by simp [h4], fun _ => h5 (by omega)⟩
      · rw [decimal_ge h, h1]; simp
      · intro x hx
        rcases List.mem_append.1 hx with hx | hx
        · exact h2 x hx
        · simp at hx; omega
      · rw [placeValue_append, h3]; simp [placeValue]; omega

theorem placeValue_lt (ds : List Nat) (h : ∀ d ∈ ds, d < 10) : placeValue ds < 10 ^ ds.length := by
  induction ds with
  | nil => simp [placeValue]
  | cons d ds ih =>
    have := ih fun d hd => h d (by simp [hd])
    have hd := h d (by simp)
    simp only [placeValue, List.length_cons, Nat.pow_succ]
    have : d * 10 ^ ds.length ≤ 9 * 10 ^ ds.length := Nat.mul_le_mul_right _ (by omega)
    omega

theorem digitChar_inj {a b : Nat} (ha : a < 10) (hb : b < 10) (h : digitChar a = digitChar b) : a = b := by
  have key : ∀ a, a < 10 → ∀ b, b < 10 → digitChar a = digitChar b → a = b := by decide
  exact key a ha b hb h

theorem digitChar_ascii {d : Nat} (h : d < 10) : isAsciiDigit (digitChar d) = true := by
  have key : ∀ d, d < 10 → isAsciiDigit (digitChar d) = true := by decide
  exact key d h

theorem digitChar_ne_newline {d : Nat} (h : d < 10) : digitChar d ≠ '\n' := by
  have key : ∀ d, d < 10 → digitChar d ≠ '\n' := by decide
  exact key d h

theorem digitChar_toNat {d : Nat} (h : d < 10) : (digitChar d).toNat = 48 + d := by
  have key : ∀ d, d < 10 → (digitChar d).toNat = 48 + d := by decide
  exact key d h

/-- exact length of the decimal text -/
theorem decimal_length_iff (n k : Nat) : (decimal n).length = k + 1 ↔ (10 ^ k ≤ n ∨ (k = 0 ∧ n = 0)) ∧ n < 10 ^ (k + 1) := by
  induction k generalizing n with
  | zero =>
    by_cases h : n < 10
    · simp [decimal_lt h]; omega
    · have := decimal_ne_nil (n / 10)
      have : (decimal (n / 10)).length ≠ 0 := by simpa using this
      rw [decimal_ge h, List.length_append, List.length_singleton]
      omega
  | succ k ih =>
    by_cases h : n < 10
    · simp [decimal_lt h]
      intro h'
      have : 10 ^ 1 ≤ 10 ^ (k + 1) := Nat.pow_le_pow_right (by omega) (by omega)
      omega
    · rw [decimal_ge h]
      simp only [List.length_append, List.length_cons, List.length_nil, Nat.add_right_cancel_iff, ih (n/10)]
      rw [Nat.pow_succ 10 (k+1), Nat.pow_succ 10 k]
      have : 1 ≤ 10 ^ k := Nat.one_le_pow _ _ (by omega)
      constructor
      · rintro ⟨h1, h2⟩
        refine ⟨.inl ?_, by omega⟩
        rcases h1 with h1 | h1 <;> omega
      · rintro ⟨h1, h2⟩
        refine ⟨.inl ?_, by omega⟩
        rcases h1 with h1 | h1 <;> omega

variable [Runtime]

theorem isDigit_digitChar {d : Nat} (h : d < 10) : isDigit (digitChar d) = true := by
  simp [isDigit, digit_digitChar h]

theorem rxChars_replicate (k : Nat) (ds : List Nat) (h : ∀ d ∈ ds, d < 10) :
    rxChars (List.replicate k isDigit) (ds.map digitChar) = true ↔ ds.length = k := by
  induction k generalizing ds with
  | zero =>
    cases ds with
    | nil => simp [rxChars]
    | cons d ds =>
      have := digitChar_ne_newline (h d (by simp))
      simp [rxChars, this]
  | succ k ih =>
    cases ds with
    | nil => simp [rxChars, List.replicate_succ]
    | cons d ds =>
      simp [rxChars, List.replicate_succ, isDigit_digitChar (h d (by simp)), ih ds fun d hd => h d (by simp [hd])]

omit [Runtime] in
theorem beq_digitChar {d a : Nat} (hd : d < 10) (ha : a < 10) : (digitChar d == digitChar a) = true ↔ d = a := by
  rw [beq_iff_eq]
  exact ⟨digitChar_inj hd ha, fun h => by rw [h]⟩

theorem rxVisa_iff (ds : List Nat) (h : ∀ d ∈ ds, d < 10) :
    rxChars rxVisa (ds.map digitChar) = true ↔ ∃ rest, ds = 4 :: rest ∧ rest.length = 15 := by
  cases ds with
  | nil => simp [rxChars, rxVisa]
  | cons d ds =>
    have e : (List.replicate 12 isDigit ++ List.replicate 3 isDigit : List (Char → Bool)) = List.replicate 15 isDigit := by
      rw [List.replicate_append_replicate]
    rw [rxVisa, List.cons_append, e]
    simp only [List.map_cons, rxChars, Bool.and_eq_true]
    rw [show '4' = digitChar 4 from rfl, beq_digitChar (h d (by simp)) (by omega),
      rxChars_replicate _ _ fun d hd => h d (by simp [hd])]
    constructor
    · rintro ⟨rfl, h'⟩; exact ⟨ds, rfl, h'⟩
    · rintro ⟨r, h, h'⟩; cases h; exact ⟨rfl, h'⟩

theorem rxMC_iff (ds : List Nat) (h : ∀ d ∈ ds, d < 10) :
    rxChars rxMC (ds.map digitChar) = true ↔ ∃ b rest, ds = 5 :: b :: rest ∧ 1 ≤ b ∧ b ≤ 5 ∧ rest.length = 14 := by
  cases ds with
  | nil => simp [rxChars, rxMC]
  | cons d ds =>
    cases ds with
    | nil => simp [rxChars, rxMC]
    | cons b ds =>
      simp only [List.map_cons, rxChars, rxMC, Bool.and_eq_true]
      rw [show '5' = digitChar 5 from rfl, beq_digitChar (h d (by simp)) (by omega),
        rxChars_replicate _ _ fun d hd => h d (by simp [hd])]
      rw [digitChar_toNat (h b (by simp)), show '1'.toNat = 49 from rfl, show (digitChar 5).toNat = 53 from rfl]
      simp only [decide_eq_true_eq]
      constructor
      · rintro ⟨rfl, ⟨h1, h2⟩, h3⟩; exact ⟨b, ds, rfl, by omega, by omega, h3⟩
      · rintro ⟨b', r, h, h1, h2, h3⟩; cases h; exact ⟨rfl, ⟨by omega, by omega⟩, h3⟩

theorem rxAmex_iff (ds : List Nat) (h : ∀ d ∈ ds, d < 10) :
    rxChars rxAmex (ds.map digitChar) = true ↔ ∃ b rest, ds = 3 :: b :: rest ∧ (b = 4 ∨ b = 7) ∧ rest.length = 13 := by
  cases ds with
  | nil => simp [rxChars, rxAmex]
  | cons d ds =>
    cases ds with
    | nil => simp [rxChars, rxAmex]
    | cons b ds =>
      simp only [List.map_cons, rxChars, rxAmex, Bool.and_eq_true, Bool.or_eq_true]
      rw [show '3' = digitChar 3 from rfl, show '4' = digitChar 4 from rfl, show '7' = digitChar 7 from rfl,
        beq_digitChar (h d (by simp)) (by omega), beq_digitChar (h b (by simp)) (by omega),
        beq_digitChar (h b (by simp)) (by omega),
        rxChars_replicate _ _ fun d hd => h d (by simp [hd])]
      constructor
      · rintro ⟨rfl, h1, h3⟩; exact ⟨b, ds, rfl, h1, h3⟩
      · rintro ⟨b', r, h, h1, h3⟩; cases h; exact ⟨rfl, h1, h3⟩

theorem rxDisc_iff (ds : List Nat) (h : ∀ d ∈ ds, d < 10) :
    rxChars rxDisc (ds.map digitChar) = true ↔ ∃ rest, ds = 6 :: 0 :: 1 :: 1 :: rest ∧ rest.length = 12 := by
  match ds, h with
  | [], _ => simp [rxChars, rxDisc]
  | [_], _ => simp [rxChars, rxDisc]
  | [_, _], _ => simp [rxChars, rxDisc]
  | [_, _, _], _ => simp [rxChars, rxDisc]
  | a :: b :: c :: d :: ds, h =>
    simp only [List.map_cons, rxChars, rxDisc, Bool.and_eq_true]
    rw [show '6' = digitChar 6 from rfl, show '0' = digitChar 0 from rfl, show '1' = digitChar 1 from rfl,
      beq_digitChar (h a (by simp)) (by omega), beq_digitChar (h b (by simp)) (by omega),
      beq_digitChar (h c (by simp)) (by omega), beq_digitChar (h d (by simp)) (by omega),
      rxChars_replicate _ _ fun d hd => h d (by simp [hd])]
    constructor
    · rintro ⟨rfl, rfl, rfl, rfl, h3⟩; exact ⟨ds, rfl, h3⟩
    · rintro ⟨r, h, h3⟩; cases h; exact ⟨rfl, rfl, rfl, rfl, h3⟩

omit [Runtime] in
/-- a digit string with non-zero head: its length is determined by its magnitude -/
theorem length_of_range {d : Nat} {ds : List Nat} (h : ∀ x ∈ d :: ds, x < 10) (hd : d ≠ 0) {k : Nat}
    (h1 : 10 ^ k ≤ placeValue (d :: ds)) (h2 : placeValue (d :: ds) < 10 ^ (k + 1)) : ds.length = k := by
  have hu := placeValue_lt (d :: ds) h
  have hl : 10 ^ ds.length ≤ placeValue (d :: ds) := by
    simp only [placeValue]
    have : 1 * 10 ^ ds.length ≤ d * 10 ^ ds.length := Nat.mul_le_mul_right _ (by omega)
    omega
  have a1 : ds.length < k + 1 := (Nat.pow_lt_pow_iff_right (a := 10) (by omega)).1 (by omega)
  have a2 : k < (d :: ds).length := (Nat.pow_lt_pow_iff_right (a := 10) (by omega)).1 (by omega)
  simp at a2
  omega

end Flatland
