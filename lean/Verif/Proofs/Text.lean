import Verif.Model.Py
/-! Helper lemmas about text: digits, stripping, joining and splitting. -/
namespace Flatland
variable [Runtime]

theorem digit_digitChar {d : Nat} (h : d < 10) : digit (digitChar d) = some d := Runtime.digit_ascii d h

theorem digit_not_space {c : Char} {d : Nat} (h : digit c = some d) : space c = false := by
  cases hs : space c with
  | false => rfl
  | true => rw [Runtime.space_not_digit c hs] at h; cases h

theorem digitsAcc_append (acc : Nat) (s t : PStr) :
    digitsAcc acc (s ++ t) = (digitsAcc acc s).bind fun a => digitsAcc a t := by
  induction s generalizing acc with
  | nil => simp [digitsAcc]
  | cons c s ih =>
    simp only [List.cons_append, digitsAcc]
    cases digit c <;> simp [ih]

omit [Runtime] in
theorem decimal_lt {n : Nat} (h : n < 10) : decimal n = [digitChar n] := by
  rw [decimal]; simp [h]

omit [Runtime] in
theorem decimal_ge {n : Nat} (h : ¬ n < 10) : decimal n = decimal (n / 10) ++ [digitChar (n % 10)] := by
  rw [decimal]; simp [h]

omit [Runtime] in
theorem decimal_ne_nil (n : Nat) : decimal n ≠ [] := by
  by_cases h : n < 10
  · simp [decimal_lt h]
  · simp [decimal_ge h]

omit [Runtime] in
/-- every character of `decimal n` is an ASCII digit -/
theorem decimal_mem {n : Nat} {c : Char} (h : c ∈ decimal n) : ∃ d, d < 10 ∧ c = digitChar d := by
  induction n using Nat.strongRecOn with
  | ind n ih =>
    by_cases hn : n < 10
    · rw [decimal_lt hn] at h
      exact ⟨n, hn, by simpa using h⟩
    · rw [decimal_ge hn] at h
      rcases List.mem_append.1 h with h | h
      · exact ih (n / 10) (by omega) h
      · exact ⟨n % 10, Nat.mod_lt _ (by omega), by simpa using h⟩

theorem digitsAcc_decimal (n : Nat) : digitsAcc 0 (decimal n) = some n := by
  induction n using Nat.strongRecOn with
  | ind n ih =>
    by_cases h : n < 10
    · simp [decimal_lt h, digitsAcc, digit_digitChar h]
    · rw [decimal_ge h, digitsAcc_append, ih (n/10) (by omega)]
      have : n % 10 < 10 := Nat.mod_lt _ (by omega)
      simp [digitsAcc, digit_digitChar this]
      omega

theorem parseDigits_decimal (n : Nat) : parseDigits (decimal n) = some n := by
  have := decimal_ne_nil n
  unfold parseDigits
  cases h : decimal n with
  | nil => contradiction
  | cons c cs => simpa [h] using digitsAcc_decimal n

theorem digitsAcc_zeros (k : Nat) (s : PStr) : digitsAcc 0 (List.replicate k '0' ++ s) = digitsAcc 0 s := by
  induction k with
  | zero => simp
  | succ k ih =>
    have : digit '0' = some 0 := Runtime.digit_ascii 0 (by omega)
    simp [List.replicate_succ, digitsAcc, this, ih]

theorem digitsAcc_padNat (w n : Nat) : digitsAcc 0 (padNat w n) = some n := by
  unfold padNat; rw [digitsAcc_zeros, digitsAcc_decimal]

omit [Runtime] in
theorem padNat_ne_nil (w n : Nat) : padNat w n ≠ [] := by
  simp [padNat, decimal_ne_nil]

theorem parseDigits_padNat (w n : Nat) : parseDigits (padNat w n) = some n := by
  have := padNat_ne_nil w n
  unfold parseDigits
  cases h : padNat w n with
  | nil => contradiction
  | cons c cs => simpa [h] using digitsAcc_padNat w n

omit [Runtime] in
theorem padNat_mem {w n : Nat} {c : Char} (h : c ∈ padNat w n) : ∃ d, d < 10 ∧ c = digitChar d := by
  unfold padNat at h
  rcases List.mem_append.1 h with h | h
  · exact ⟨0, by omega, by rw [List.eq_of_mem_replicate h]; rfl⟩
  · exact decimal_mem h

omit [Runtime] in
theorem padNat_zero (n : Nat) : padNat 0 n = decimal n := by simp [padNat]

/-! ### strip -/

omit [Runtime] in
theorem dropWhile_eq_self {α} {p : α → Bool} {s : List α} (h : ∀ c, s.head? = some c → p c = false) :
    s.dropWhile p = s := by
  cases s with
  | nil => rfl
  | cons c cs => simp [List.dropWhile, h c rfl]

omit [Runtime] in
theorem dropWhile_dropWhile {α} (p : α → Bool) (s : List α) : (s.dropWhile p).dropWhile p = s.dropWhile p := by
  induction s with
  | nil => rfl
  | cons c cs ih =>
    by_cases h : p c
    · simpa [List.dropWhile, h] using ih
    · simp [List.dropWhile, h]

omit [Runtime] in
theorem head?_dropWhile_false {α} (p : α → Bool) (s : List α) : ∀ c, (s.dropWhile p).head? = some c → p c = false := by
  induction s with
  | nil => simp
  | cons x xs ih =>
    by_cases h : p x
    · simpa [List.dropWhile, h] using ih
    · intro c hc; simp [List.dropWhile, h] at hc; subst hc; simpa using h

theorem lstrip_eq_self {s : PStr} (h : ∀ c, s.head? = some c → space c = false) : lstrip s = s :=
  dropWhile_eq_self h

theorem rstrip_eq_self {s : PStr} (h : ∀ c, s.getLast? = some c → space c = false) : rstrip s = s := by
  unfold rstrip
  rw [dropWhile_eq_self]
  · simp
  · intro c hc; rw [List.head?_reverse] at hc; exact h c hc

theorem strip_eq_self {s : PStr} (h1 : ∀ c, s.head? = some c → space c = false)
    (h2 : ∀ c, s.getLast? = some c → space c = false) : strip s = s := by
  unfold strip; rw [lstrip_eq_self h1, rstrip_eq_self h2]

theorem strip_of_no_space {s : PStr} (h : ∀ c ∈ s, space c = false) : strip s = s :=
  strip_eq_self (fun c hc => h c (List.mem_of_head? hc)) (fun c hc => h c (List.mem_of_getLast? hc))

/-- the last character of an `rstrip` is not white space -/
theorem getLast?_rstrip (s : PStr) : ∀ c, (rstrip s).getLast? = some c → space c = false := by
  intro c hc
  unfold rstrip at hc
  rw [List.getLast?_reverse] at hc
  exact head?_dropWhile_false _ _ c hc

theorem rstrip_prefix (s : PStr) : rstrip s <+: s := by
  unfold rstrip
  have : s.reverse.dropWhile space <:+ s.reverse := List.dropWhile_suffix _
  simpa using List.reverse_prefix.2 this

omit [Runtime] in
theorem head?_of_prefix {α} {s t : List α} (h : s <+: t) : ∀ c, s.head? = some c → t.head? = some c := by
  obtain ⟨r, rfl⟩ := h
  intro c hc
  cases s <;> simp_all

theorem head?_strip (s : PStr) : ∀ c, (strip s).head? = some c → space c = false := by
  intro c hc
  exact head?_dropWhile_false _ _ c (head?_of_prefix (rstrip_prefix _) c hc)

theorem getLast?_strip (s : PStr) : ∀ c, (strip s).getLast? = some c → space c = false := getLast?_rstrip _

theorem strip_strip (s : PStr) : strip (strip s) = strip s :=
  strip_eq_self (head?_strip s) (getLast?_strip s)

theorem strip_sublist (s : PStr) : (strip s).Sublist s :=
  (rstrip_prefix _).sublist.trans (List.dropWhile_suffix _).sublist

/-- stripping removes white space only: the text is padding ++ stripped ++ padding -/
theorem strip_decomp (s : PStr) : ∃ l r, s = l ++ strip s ++ r ∧ (∀ c ∈ l, space c = true) ∧ (∀ c ∈ r, space c = true) := by
  refine ⟨s.takeWhile space, ((lstrip s).reverse.takeWhile space).reverse, ?_, ?_, ?_⟩
  · unfold strip rstrip
    rw [List.append_assoc, ← List.reverse_append, List.takeWhile_append_dropWhile, List.reverse_reverse]
    unfold lstrip; rw [List.takeWhile_append_dropWhile]
  · intro c hc; exact List.all_eq_true.1 List.all_takeWhile c hc
  · intro c hc; rw [List.mem_reverse] at hc; exact List.all_eq_true.1 List.all_takeWhile c hc

omit [Runtime] in
theorem dropWhile_append_all {α} {p : α → Bool} {l s : List α} (h : ∀ c ∈ l, p c = true) :
    (l ++ s).dropWhile p = s.dropWhile p := by
  induction l with
  | nil => rfl
  | cons c l ih =>
    simp [h c (by simp)]
    exact ih fun c hc => h c (by simp [hc])

theorem lstrip_append {l s : PStr} (h : ∀ c ∈ l, space c = true) : lstrip (l ++ s) = lstrip s :=
  dropWhile_append_all h

theorem rstrip_append {s r : PStr} (h : ∀ c ∈ r, space c = true) : rstrip (s ++ r) = rstrip s := by
  unfold rstrip
  rw [List.reverse_append, dropWhile_append_all]
  intro c hc; exact h c (by simpa using hc)

/-- converse of `strip_decomp` -/
theorem strip_of_decomp {l m r : PStr} (hl : ∀ c ∈ l, space c = true) (hr : ∀ c ∈ r, space c = true)
    (h1 : ∀ c, m.head? = some c → space c = false) (h2 : ∀ c, m.getLast? = some c → space c = false) :
    strip (l ++ m ++ r) = m := by
  unfold strip
  rw [List.append_assoc, lstrip_append hl]
  cases m with
  | nil =>
    simp only [List.nil_append]
    have : lstrip r = [] := by
      have := lstrip_append (s := []) hr
      simpa [lstrip] using this
    rw [this]; rfl
  | cons c m =>
    rw [lstrip_eq_self (by simpa using h1 c rfl), rstrip_append hr, rstrip_eq_self h2]

/-! ### integers -/

theorem digitChar_not_space {d : Nat} (h : d < 10) : space (digitChar d) = false :=
  digit_not_space (digit_digitChar h)

theorem digitChar_ne {d : Nat} (h : d < 10) {c : Char} (hc : digit c = none) : digitChar d ≠ c := by
  intro e; rw [← e, digit_digitChar h] at hc; cases hc

theorem strip_padNat (w n : Nat) : strip (padNat w n) = padNat w n :=
  strip_of_no_space fun c hc => by
    obtain ⟨d, hd, rfl⟩ := padNat_mem hc
    exact digitChar_not_space hd

theorem strip_padInt (w : Nat) (i : Int) : strip (padInt w i) = padInt w i := by
  apply strip_of_no_space
  intro c hc
  cases i with
  | ofNat n =>
    obtain ⟨d, hd, rfl⟩ := padNat_mem hc
    exact digitChar_not_space hd
  | negSucc n =>
    simp only [padInt, List.mem_cons] at hc
    rcases hc with rfl | hc
    · exact Runtime.minus_not_space
    · obtain ⟨d, hd, rfl⟩ := padNat_mem hc
      exact digitChar_not_space hd

theorem pyInt_padNat (w n : Nat) : pyInt (padNat w n) = some (n : Int) := by
  unfold pyInt
  rw [strip_padNat]
  have hp := parseDigits_padNat w n
  cases h : padNat w n with
  | nil => exact absurd h (padNat_ne_nil w n)
  | cons c cs =>
    obtain ⟨d, hd, hc⟩ := padNat_mem (w := w) (n := n) (c := c) (by simp [h])
    have h1 : c ≠ '-' := hc ▸ digitChar_ne hd Runtime.minus_not_digit
    have h2 : c ≠ '+' := hc ▸ digitChar_ne hd Runtime.plus_not_digit
    rw [h] at hp
    split
    · rename_i heq; cases heq; exact absurd rfl h1
    · rename_i heq; cases heq; exact absurd rfl h2
    · rw [hp]; rfl

theorem pyInt_padInt (w : Nat) (i : Int) : pyInt (padInt w i) = some i := by
  cases i with
  | ofNat n => exact pyInt_padNat w n
  | negSucc n =>
    have := strip_padInt w (Int.negSucc n)
    unfold pyInt
    rw [this]
    simp only [padInt, parseDigits_padNat]
    rfl

omit [Runtime] in
theorem padInt_zero (i : Int) : padInt 0 i = decimalInt i := by
  cases i <;> simp [padInt, decimalInt, padNat_zero]

theorem pyInt_decimalInt (i : Int) : pyInt (decimalInt i) = some i := by
  rw [← padInt_zero]; exact pyInt_padInt 0 i

end Flatland
