import Verif.Proofs.Floats2
/-
Helper lemmas for C85: the text shown for a number, and reading it back.
-/
namespace Flatland
open Spec

section
variable [Runtime]

theorem digitsAcc_shift (acc : Nat) (s : PStr) : digitsAcc acc s = (digitsAcc 0 s).map fun n => acc * 10 ^ s.length + n := by
  induction s generalizing acc with
  | nil => simp [digitsAcc]
  | cons c s ih =>
    simp only [digitsAcc]
    cases h : digit c with
    | none => simp
    | some d =>
      simp only
      rw [ih (acc * 10 + d), ih (0 * 10 + d), Option.map_map]
      congr 1
      funext n
      simp only [Function.comp, List.length_cons, pow_succ]
      ring

theorem digitText_fixed {k n : Nat} (hk : 0 < k) : DigitText (decimal (n / 10 ^ k) ++ padNat k (n % 10 ^ k)) n := by
  rw [digitText_iff]
  have hp : (padNat k (n % 10 ^ k)).length = k := padNat_length hk (Nat.mod_lt _ (by positivity))
  have hne : (decimal (n / 10 ^ k) ++ padNat k (n % 10 ^ k)).isEmpty = false := by
    simp [decimal_ne_nil]
  simp only [parseDigits, hne, Bool.false_eq_true, if_false]
  rw [digitsAcc_append, digitsAcc_decimal]
  simp only [Option.bind_some]
  rw [digitsAcc_shift, digitsAcc_padNat, hp]
  simp [Nat.div_add_mod']

theorem digitText_decimal (n : Nat) : DigitText (decimal n) n := (digitText_iff _ _).mpr (parseDigits_decimal n)

theorem digits_of_digitText {s : PStr} {n : Nat} (h : DigitText s n) : AllDigits s := fun _ hc => digitText_mem h hc

theorem digits_padNat (w n : Nat) : AllDigits (padNat w n) := by
  intro c hc
  obtain ⟨d, hd, rfl⟩ := padNat_mem hc
  exact ⟨d, digit_digitChar hd⟩

/-- what is shown is a mantissa -/
theorem mantissa_fixed (k : Nat) (q : ℚ) : Mantissa (fixedText k q) (roundEven (q * 10 ^ k)) k := by
  have hq : q * pow10 k = q * 10 ^ k := by rw [pow10_eq, zpow_natCast]
  simp only [fixedText, hq]
  split
  · rename_i h; subst h; exact .whole (digitText_decimal _)
  · rename_i h
    have hk : 0 < k := Nat.pos_of_ne_zero h
    have hp : (padNat k (roundEven (q * 10 ^ k) % 10 ^ k)).length = k := padNat_length hk (Nat.mod_lt _ (by positivity))
    have := Mantissa.point (digits_of_digitText (digitText_decimal (roundEven (q * 10 ^ k) / 10 ^ k)))
      (digits_padNat k (roundEven (q * 10 ^ k) % 10 ^ k)) (digitText_fixed hk)
    rwa [hp] at this

theorem numeral_fixed (neg : Bool) (k : Nat) (q : ℚ) : Numeral (signText neg ++ fixedText k q) neg (roundEven (q * 10 ^ k)) (-k) := by
  have hs : Sign (signText neg) neg := by
    cases neg
    · exact .nothing
    · exact .minus
  have := Numeral.intro hs (mantissa_fixed k q) .nothing
  simpa using this

end

/-! ### the shape of the text -/

theorem decimal_head_zero (n : Nat) : (decimal n).head? = some '0' → decimal n = ['0'] := by
  induction n using Nat.strongRecOn with
  | ind n ih =>
    intro h
    by_cases hn : n < 10
    · rw [decimal_lt hn] at h ⊢
      simpa using h
    · rw [decimal_ge hn] at h
      have hne := decimal_ne_nil (n / 10)
      have h' : (decimal (n / 10)).head? = some '0' := by
        cases hd : decimal (n / 10) with
        | nil => exact absurd hd hne
        | cons a t => rw [hd] at h; simpa using h
      have h2 := ih (n / 10) (by omega) h'
      have h3 := @digitsAcc_decimal Runtime.ascii (n / 10)
      rw [h2] at h3
      have h4 : n / 10 = 0 := by
        have h5 : @digitsAcc Runtime.ascii 0 ['0'] = some 0 := by decide
        rw [h5] at h3; simpa using h3.symm
      omega

theorem digitsValue_of {s : PStr} {n : Nat} (acc : Nat) (h : @digitsAcc Runtime.ascii acc s = some n) :
    s.foldl (fun a c => a * 10 + (c.toNat - 48)) acc = n := by
  induction s generalizing acc with
  | nil => simpa [digitsAcc] using h
  | cons c s ih =>
    simp only [digitsAcc] at h
    split at h
    · rename_i d hd
      simp only [List.foldl_cons]
      have : d = c.toNat - 48 := by
        have hd' : (if 48 ≤ c.toNat ∧ c.toNat ≤ 57 then some (c.toNat - 48) else none) = some d := hd
        split at hd'
        · simpa using hd'.symm
        · simp at hd'
      rw [← this]
      exact ih _ h
    · simp at h

theorem ascii_digitChar {d : Nat} (h : d < 10) : IsAsciiDigit (digitChar d) := by
  have : ∀ d, d < 10 → ('0' ≤ digitChar d ∧ digitChar d ≤ '9') := by decide
  exact this d h

theorem shownAs_fixed (k : Nat) (q : ℚ) : ShownAs k (roundEven (q * 10 ^ k)) (fixedText k q) := by
  have hq : q * pow10 k = q * 10 ^ k := by rw [pow10_eq, zpow_natCast]
  generalize hn : roundEven (q * 10 ^ k) = n
  by_cases hk : k = 0
  · subst hk
    refine ⟨decimal n, [], by simp only [fixedText, hq, hn, if_true, List.append_nil], rfl, ?_, ?_, decimal_ne_nil n, decimal_head_zero n⟩
    · intro c hc
      obtain ⟨d, hd, rfl⟩ := decimal_mem (by simpa using hc)
      exact ascii_digitChar hd
    · simp only [List.append_nil]
      exact digitsValue_of 0 (@digitsAcc_decimal Runtime.ascii n)
  · have hk' : 0 < k := Nat.pos_of_ne_zero hk
    have hp : (padNat k (n % 10 ^ k)).length = k := padNat_length hk' (Nat.mod_lt _ (by positivity))
    refine ⟨decimal (n / 10 ^ k), padNat k (n % 10 ^ k), by simp only [fixedText, hq, hn, if_neg hk], hp, ?_, ?_, decimal_ne_nil _, decimal_head_zero _⟩
    · intro c hc
      rcases List.mem_append.mp hc with hc | hc
      · obtain ⟨d, hd, rfl⟩ := decimal_mem hc
        exact ascii_digitChar hd
      · obtain ⟨d, hd, rfl⟩ := padNat_mem hc
        exact ascii_digitChar hd
    · have := (@digitText_iff Runtime.ascii _ _).mp (@digitText_fixed Runtime.ascii k n hk')
      have hne : (decimal (n / 10 ^ k) ++ padNat k (n % 10 ^ k)).isEmpty = false := by simp [decimal_ne_nil]
      simp only [parseDigits, hne, Bool.false_eq_true, if_false] at this
      exact digitsValue_of 0 this

/-- there is one text for a number of units -/
theorem showsFloat_floatText (k : Nat) {x : FloatVal} (hx : IsFloat x) : ShowsFloat k x (floatText k x) := by
  cases x with
  | nan => rfl
  | inf neg => cases neg <;> rfl
  | fin neg d =>
    have h0 := isDouble_nonneg hx
    refine ⟨roundEven (d * 10 ^ k), fixedText k d, roundEven_spec (mul_nonneg h0 (by positivity)), shownAs_fixed k d, ?_⟩
    cases neg <;> rfl

section
variable [Runtime] [NumberRuntime]

omit [Runtime] [NumberRuntime] in
theorem isFloat_size {q : ℚ} (hq : 0 ≤ q) (neg : Bool) : IsFloat (floatOfSize neg q) := by
  unfold floatOfSize
  cases h : toDouble q with
  | none => trivial
  | some d => exact (toDouble_nearest hq h).1

omit [NumberRuntime] in
theorem floatMeans_isFloat {s : PStr} {x : FloatVal} (h : FloatMeans s x) : IsFloat x := by
  cases h with
  | number _ _ h => exact h.1
  | _ => trivial

omit [Runtime] [NumberRuntime] in
theorem decAsFloat_isFloat {d : DecVal} {x : FloatVal} (h : DecAsFloat d x) : IsFloat x := by
  cases h with
  | number _ h => exact h.1
  | _ => trivial

omit [Runtime] [NumberRuntime] in
theorem belowZero_iff (x : FloatVal) : floatNegative x = true ↔ BelowZero x := by
  cases x <;> simp [floatNegative, BelowZero]

omit [NumberRuntime] in
/-- what a shown number starts and ends with -/
theorem fixedText_ends (k : Nat) (q : ℚ) : ∃ c t l c', fixedText k q = c :: t ∧ fixedText k q = l ++ [c'] ∧ space c = false ∧ space c' = false := by
  have key : ∀ s : PStr, s ≠ [] → (∀ c ∈ s, ∃ d, d < 10 ∧ c = digitChar d) → ∃ c t l c', s = c :: t ∧ s = l ++ [c'] ∧ space c = false ∧ space c' = false := by
    intro s hs hd
    obtain ⟨c, t, hc⟩ := List.exists_cons_of_ne_nil hs
    refine ⟨c, t, s.dropLast, s.getLast hs, hc, (List.dropLast_append_getLast hs).symm, ?_, ?_⟩
    · obtain ⟨d, h, rfl⟩ := hd c (by simp [hc]); exact digitChar_not_space h
    · obtain ⟨d, h, he⟩ := hd _ (List.getLast_mem hs); rw [he]; exact digitChar_not_space h
  simp only [fixedText]
  generalize roundEven (q * pow10 k) = n
  split
  · exact key _ (decimal_ne_nil n) (fun c => decimal_mem)
  · obtain ⟨c, t, -, -, h1, -, h2, -⟩ := key _ (decimal_ne_nil (n / 10 ^ k)) (fun c => decimal_mem)
    obtain ⟨-, -, l, c', -, h3, -, h4⟩ := key _ (padNat_ne_nil k (n % 10 ^ k)) (fun c => padNat_mem)
    refine ⟨c, t ++ '.' :: padNat k (n % 10 ^ k), decimal (n / 10 ^ k) ++ '.' :: l, c', by rw [h1]; rfl, by rw [h3]; simp, h2, h4⟩

theorem letters_not_space {s : PStr} (h : ∀ c ∈ s, 'a' ≤ c ∧ c ≤ 'z') : ∀ c ∈ s, space c = false :=
  fun c hc => NumberRuntime.letter_not_space c (.inl (h c hc))

/-- no white space around a shown number -/
theorem strip_floatText (k : Nat) (x : FloatVal) : strip (floatText k x) = floatText k x := by
  have hsgn : ∀ neg, ∀ c ∈ signText neg, space c = false := by
    intro neg c hc
    cases neg
    · simp [signText] at hc
    · simp [signText] at hc; subst hc; exact Runtime.minus_not_space
  cases x with
  | nan => exact strip_of_no_space (letters_not_space (s := "nan".toList) (by decide))
  | inf neg =>
    apply strip_of_no_space
    intro c hc
    rcases List.mem_append.mp hc with hc | hc
    · exact hsgn _ c hc
    · exact letters_not_space (s := "inf".toList) (by decide) c hc
  | fin neg q =>
    obtain ⟨c, t, l, c', h1, h2, h3, h4⟩ := fixedText_ends k q
    apply strip_eq_self
    · intro a ha
      cases neg
      · simp only [floatText, signText, Bool.false_eq_true, if_false, List.nil_append, h1, List.head?_cons, Option.some.injEq] at ha
        subst ha; exact h3
      · simp only [floatText, signText, if_true, List.cons_append, List.head?_cons, Option.some.injEq] at ha
        subst ha; exact Runtime.minus_not_space
    · intro a ha
      simp only [floatText, h2, ← List.append_assoc, List.getLast?_append, List.getLast?_singleton, Option.some_or, Option.some.injEq] at ha
      subst ha; exact h4

omit [Runtime] [NumberRuntime] in
theorem word_sign (neg : Bool) {w : PStr} (hw : w.map Char.toLower = w) : Word (signText neg ++ w) neg w := by
  cases neg
  · exact .intro .nothing hw
  · exact .intro .minus hw

omit [NumberRuntime] in
/-- the text shown for a float is the text of a float with the same text, and the same sign -/
theorem float_again (k : Nat) {x : FloatVal} (hx : IsFloat x) : ∃ y, FloatMeans (floatText k x) y ∧ floatText k y = floatText k x ∧
    IsFloat y ∧ (¬ BelowZero x → ¬ BelowZero y) := by
  cases x with
  | nan => exact ⟨.nan, .nan (word_sign false (by decide)), rfl, trivial, id⟩
  | inf neg => exact ⟨.inf neg, .inf (word_sign neg (by decide)), rfl, trivial, id⟩
  | fin neg d =>
    obtain ⟨y, h1, h2, h3⟩ := fixed_settles k hx
    have hn := numeral_fixed neg k d
    have hsz : decSize (roundEven (d * 10 ^ k)) (-k) = roundEven (d * 10 ^ k) * ((10 : ℚ) ^ k)⁻¹ := by
      simp [decSize]
    have hnot : ¬ TooLarge (decSize (roundEven (d * 10 ^ k)) (-k)) := by
      intro hh
      rw [← toDouble_none (decSize_nonneg _ _), hsz, h1] at hh
      simp at hh
    refine ⟨.fin neg y, .number hn hnot (toDouble_nearest (decSize_nonneg _ _) (by rw [hsz]; exact h1)), ?_, h2, ?_⟩
    · have hq : ∀ q : ℚ, q * pow10 k = q * 10 ^ k := fun q => by rw [pow10_eq, zpow_natCast]
      simp only [floatText, fixedText, hq, h3]
    · intro hb hb'
      apply hb
      refine ⟨hb'.1, ?_⟩
      intro hd
      subst hd
      apply hb'.2
      have h0 : roundEven (0 * 10 ^ k) = 0 := by
        have := roundEven_natCast 0
        simpa using this
      rw [h0] at h1
      simp [toDouble] at h1
      exact h1.symm

omit [NumberRuntime] in
/-- the text shown for a Decimal is the text of a Decimal that is shown in the same way -/
theorem dec_again (k : Nat) {z : FloatVal} (hz : IsFloat z) : ∃ d y, DecMeans (floatText k z) d ∧ DecAsFloat d y ∧ floatText k y = floatText k z ∧
    IsFloat y ∧ d ≠ .nan true ∧ ((z = .nan → d = .nan false) ∧ (z ≠ .nan → ∀ b, d ≠ .nan b)) ∧
    (∀ neg, z = .inf neg → d = .inf neg) ∧ ∀ neg x, z = .fin neg x → d = .fin neg (roundEven (x * 10 ^ k)) (-k) := by
  cases z with
  | nan =>
    refine ⟨.nan false, .nan, ?_, .nan, rfl, trivial, by simp, by simp, by simp, by simp⟩
    have := DecMeans.nan (ds := []) (word_sign false (w := "nan".toList) (by decide)) (by simp [AllDigits])
    rw [List.append_nil] at this
    exact this
  | inf neg => exact ⟨.inf neg, .inf neg, .inf (word_sign neg (by decide)), .inf, rfl, trivial, by simp, by simp, by simp, by simp⟩
  | fin neg x =>
    obtain ⟨y, h1, h2, h3⟩ := fixed_settles k hz
    have hsz : decSize (roundEven (x * 10 ^ k)) (-k) = roundEven (x * 10 ^ k) * ((10 : ℚ) ^ k)⁻¹ := by
      simp [decSize]
    have hnot : ¬ TooLarge (decSize (roundEven (x * 10 ^ k)) (-k)) := by
      intro hh
      rw [← toDouble_none (decSize_nonneg _ _), hsz, h1] at hh
      simp at hh
    refine ⟨_, .fin neg y, .number (numeral_fixed neg k x), .number hnot (toDouble_nearest (decSize_nonneg _ _) (by rw [hsz]; exact h1)), ?_, h2,
      by simp, by simp, by simp, by simp⟩
    have hq : ∀ q : ℚ, q * pow10 k = q * 10 ^ k := fun q => by rw [pow10_eq, zpow_natCast]
    simp only [floatText, fixedText, hq, h3]

end
end Flatland
