import Verif.Proofs.CreditCard
/-!
Property theorems C07, C08: credit card numbers (flatland/ext/creditcard.py).
-/
namespace Flatland
open Spec
variable [Runtime]

/-! ## C07 – display formatting -/

omit [Runtime] in
/-- helper: the digits of the display form are the digits of the number -/
theorem reStrip_pretty (n : Nat) : reStrip (ccPretty n) = decimal n := by
  have hall : ∀ c ∈ decimal n, isAsciiDigit c = true := by
    intro c hc
    obtain ⟨d, hd, rfl⟩ := decimal_mem hc
    exact digitChar_ascii hd
  have hsub : ∀ t : PStr, (∀ c ∈ t, c ∈ decimal n) → t.filter isAsciiDigit = t := by
    intro t ht
    rw [List.filter_eq_self]; intro c hc; exact hall c (ht c hc)
  have hdash : isAsciiDigit '-' = false := by decide
  have ht : ∀ k, (decimal n).take k |>.all (· ∈ decimal n) := by
    intro k; simp; intro c hc; exact List.mem_of_mem_take hc
  unfold ccPretty reStrip
  simp only [show decimalInt (n : Int) = decimal n from rfl]
  have m1 : ∀ a b, ∀ c ∈ ((decimal n).drop a).take b, c ∈ decimal n :=
    fun a b c hc => List.mem_of_mem_drop (List.mem_of_mem_take hc)
  have m0 : ∀ b, ∀ c ∈ (decimal n).take b, c ∈ decimal n := fun b c hc => List.mem_of_mem_take hc
  have cat : ∀ a b (s : PStr), (s.drop a).take b ++ s.drop (a + b) = s.drop a := by
    intro a b s; rw [← List.drop_drop, List.take_append_drop]
  split
  · rename_i hl
    simp only [List.filter_append, List.filter_cons, hdash, hsub _ (m0 _), hsub _ (m1 _ _)]
    rw [List.take_of_length_le (l := (decimal n).drop 12) (by simp [hl])]
    have c1 := cat 4 4 (decimal n); have c2 := cat 8 4 (decimal n)
    simp only [Bool.false_eq_true, if_false, List.append_assoc]
    rw [c2, c1, List.take_append_drop]
  · split
    · rename_i hl
      simp only [List.filter_append, List.filter_cons, hdash, hsub _ (m0 _), hsub _ (m1 _ _)]
      rw [List.take_of_length_le (l := (decimal n).drop 10) (by simp [hl])]
      have c1 := cat 4 6 (decimal n)
      simp only [Bool.false_eq_true, if_false, List.append_assoc]
      rw [c1, List.take_append_drop]
    · split
      · rename_i hl
        simp only [List.filter_append, List.filter_cons, hdash, hsub _ (m0 _), hsub _ (m1 _ _)]
        rw [List.take_of_length_le (l := (decimal n).drop 10) (by simp [hl])]
        have c1 := cat 4 3 (decimal n); have c2 := cat 7 3 (decimal n)
        simp only [Bool.false_eq_true, if_false, List.append_assoc]
        rw [c2, c1, List.take_append_drop]
      · exact hsub _ fun c hc => hc

omit [Runtime] in
/-- helper: characters of the display form -/
theorem pretty_chars (n : Nat) : ∀ c ∈ ccPretty n, isAsciiDigit c = true ∨ c = '-' := by
  have hall : ∀ c ∈ decimal n, isAsciiDigit c = true := by
    intro c hc
    obtain ⟨d, hd, rfl⟩ := decimal_mem hc
    exact digitChar_ascii hd
  have m1 : ∀ a b, ∀ c ∈ ((decimal n).drop a).take b, isAsciiDigit c = true :=
    fun a b c hc => hall c (List.mem_of_mem_drop (List.mem_of_mem_take hc))
  have m0 : ∀ b, ∀ c ∈ (decimal n).take b, isAsciiDigit c = true := fun b c hc => hall c (List.mem_of_mem_take hc)
  intro c hc
  unfold ccPretty at hc
  simp only [show decimalInt (n : Int) = decimal n from rfl] at hc
  split at hc
  · simp only [List.mem_append, List.mem_cons] at hc
    rcases hc with ((hc | rfl | hc) | rfl | hc) | rfl | hc
    all_goals first | exact .inr rfl | exact .inl (m0 _ _ hc) | exact .inl (m1 _ _ _ hc)
  · split at hc
    · simp only [List.mem_append, List.mem_cons] at hc
      rcases hc with (hc | rfl | hc) | rfl | hc
      all_goals first | exact .inr rfl | exact .inl (m0 _ _ hc) | exact .inl (m1 _ _ _ hc)
    · split at hc
      · simp only [List.mem_append, List.mem_cons] at hc
        rcases hc with ((hc | rfl | hc) | rfl | hc) | rfl | hc
        all_goals first | exact .inr rfl | exact .inl (m0 _ _ hc) | exact .inl (m1 _ _ _ hc)
      · exact .inl (hall c hc)

omit [Runtime] in
/-- helper: length of the display form -/
theorem pretty_length (n : Nat) (h : (decimal n).length = 13 ∨ 15 ≤ (decimal n).length) : 15 ≤ (ccPretty n).length := by
  unfold ccPretty
  simp only [show decimalInt (n : Int) = decimal n from rfl]
  split
  · simp; omega
  · split
    · simp; omega
    · split
      · simp; omega
      · omega

/-- **C07.** A card number of 13 digits, or of 15 or more, set from its own display form is read back as the same number. -/
theorem C07_display_roundtrip (n : Nat) (h : HasDigits 13 n ∨ (10 ^ 14 : Int) ≤ n) :
    ∃ u, creditCardType.serialize (.int n) = .ok u ∧ creditCardType.adapt (.str u) = .ok (.int n) := by
  refine ⟨ccPretty n, rfl, ?_⟩
  have hlen : (decimal n).length = 13 ∨ 15 ≤ (decimal n).length := by
    rcases h with h | h
    · left
      unfold HasDigits at h
      rw [show 13 = 12 + 1 from rfl, decimal_length_iff]
      refine ⟨.inl ?_, ?_⟩ <;> omega
    · right
      obtain ⟨k, hk⟩ : ∃ k, (decimal n).length = k + 1 := by
        have := decimal_ne_nil n
        cases hd : decimal n with
        | nil => contradiction
        | cons c cs => exact ⟨cs.length, rfl⟩
      have := ((decimal_length_iff n k).1 hk).2
      have : 14 < k + 1 := (Nat.pow_lt_pow_iff_right (a := 10) (by omega)).1 (by omega)
      omega
  have hfill : reFiller (ccPretty n) = true := by
    unfold reFiller
    simp only [Bool.and_eq_true, decide_eq_true_eq, List.all_eq_true]
    refine ⟨pretty_length n hlen, ?_⟩
    intro c hc
    rcases pretty_chars n c hc with h | h <;> simp [h]
  simp only [creditCardType, ccFromString, hfill, reStrip_pretty]
  have : pyInt (decimal n) = some (n : Int) := pyInt_decimalInt (n : Int)
  simp [this]

theorem adapt_text_iff (s : PStr) (v : PyVal) :
    creditCardType.adapt (.str s) = .ok v ↔
      15 ≤ s.length ∧ (∀ c ∈ s, isAsciiDigit c = true ∨ space c = true ∨ c = '-') ∧
        ∃ n : Nat, DigitText (s.filter isAsciiDigit) n ∧ v = .int n := by
  have hf : reFiller s = true ↔ 15 ≤ s.length ∧ (∀ c ∈ s, isAsciiDigit c = true ∨ space c = true ∨ c = '-') := by
    unfold reFiller
    simp only [Bool.and_eq_true, decide_eq_true_eq, List.all_eq_true, Bool.or_eq_true, beq_iff_eq, or_assoc]
  have hasc : ∀ c, isAsciiDigit c = true → ∃ d, d < 10 ∧ c = digitChar d := by
    intro c hc
    simp only [isAsciiDigit, Bool.and_eq_true, decide_eq_true_eq] at hc
    refine ⟨c.toNat - 48, by omega, ?_⟩
    unfold digitChar
    rw [show 48 + (c.toNat - 48) = c.toNat by omega, Char.ofNat_toNat]
  have hint : pyInt (reStrip s) = (parseDigits (reStrip s)).map fun (n : Nat) => (n : Int) := by
    have hmem : ∀ c ∈ reStrip s, ∃ d, d < 10 ∧ c = digitChar d := by
      intro c hc; exact hasc c (by simpa using (List.mem_filter.1 hc).2)
    have hst : strip (reStrip s) = reStrip s := strip_of_no_space fun c hc => by
      obtain ⟨d, hd, rfl⟩ := hmem c hc; exact digitChar_not_space hd
    unfold pyInt
    rw [hst]
    split
    · rename_i heq
      obtain ⟨d, hd, he⟩ := hmem '-' (by rw [heq]; simp)
      exact absurd he.symm (digitChar_ne hd Runtime.minus_not_digit)
    · rename_i heq
      obtain ⟨d, hd, he⟩ := hmem '+' (by rw [heq]; simp)
      exact absurd he.symm (digitChar_ne hd Runtime.plus_not_digit)
    · rfl
  constructor
  · intro h
    simp only [creditCardType, ccFromString] at h
    by_cases hfil : reFiller s = true
    · refine ⟨(hf.1 hfil).1, (hf.1 hfil).2, ?_⟩
      simp only [hfil, hint] at h
      cases hp : parseDigits (reStrip s) with
      | none => simp [hp] at h
      | some n =>
        simp [hp] at h
        exact ⟨n, (digitText_iff _ _).2 hp, h.symm⟩
    · simp [hfil] at h
  · rintro ⟨h1, h2, n, h3, rfl⟩
    simp only [creditCardType, ccFromString, hf.2 ⟨h1, h2⟩, hint]
    simp [show parseDigits (reStrip s) = some n from (digitText_iff _ _).1 h3]

/-- **C07 (meaning of accepted text).** Text is accepted exactly when it is at least 15 characters of digits, white space and
dashes including a digit, and then the number is the one spelt by its digits. -/
theorem C07_adapt_text_iff (s : PStr) (v : PyVal) :
    creditCardType.adapt (.str s) = .ok v ↔
      15 ≤ s.length ∧ (∀ c ∈ s, c ∈ digitSigns ∨ space c = true ∨ c = '-') ∧
        ∃ n : Nat, DigitText (s.filter (· ∈ digitSigns)) n ∧ v = .int n := by
  have h := adapt_text_iff s v
  simpa only [isAsciiDigit_iff, ascii_filter, ← Bool.not_eq_true] using h

/-- **C07 (disagreement).** `set` does raise on text: an uncaught ValueError escapes for fifteen dashes. -/
theorem C07_set_crashes : ∃ s : PStr, (scalarSet creditCardType .fresh (.str s)).2 = .error .value := by
  refine ⟨List.replicate 15 '-', ?_⟩
  have hd : isAsciiDigit '-' = false := by decide
  have h1 : reFiller (List.replicate 15 '-') = true := by simp [reFiller]
  have h2 : reStrip (List.replicate 15 '-') = [] := by simp [reStrip, hd]
  have h3 : creditCardType.adapt (.str (List.replicate 15 '-')) = .error .value := by
    simp only [creditCardType, ccFromString, h1, h2]
    simp [pyInt, strip, lstrip, rstrip, parseDigits]
  unfold scalarSet; rw [h3]

theorem set_total_digit (st : ScalarState) (s : PStr) (h : ∃ c ∈ s, isAsciiDigit c = true) :
    ∃ b, (scalarSet creditCardType st (.str s)).2 = .ok b := by
  have hasc : ∀ c, isAsciiDigit c = true → ∃ d, d < 10 ∧ c = digitChar d := by
    intro c hc
    simp only [isAsciiDigit, Bool.and_eq_true, decide_eq_true_eq] at hc
    refine ⟨c.toNat - 48, by omega, ?_⟩
    unfold digitChar
    rw [show 48 + (c.toNat - 48) = c.toNat by omega, Char.ofNat_toNat]
  cases ha : creditCardType.adapt (.str s) with
  | ok v =>
    obtain ⟨_, _, n, _, rfl⟩ := (adapt_text_iff s v).1 ha
    exact ⟨true, by unfold scalarSet; rw [ha]; rfl⟩
  | error e =>
    have : e = .adaptation := by
      by_cases hfil : reFiller s = true
      · exfalso
        have hf : 15 ≤ s.length ∧ (∀ c ∈ s, isAsciiDigit c = true ∨ space c = true ∨ c = '-') := by
          unfold reFiller at hfil
          simpa only [Bool.and_eq_true, decide_eq_true_eq, List.all_eq_true, Bool.or_eq_true, beq_iff_eq, or_assoc] using hfil
        have hdt : ∃ n, DigitText (s.filter isAsciiDigit) n := by
          have hne : s.filter isAsciiDigit ≠ [] := by
            obtain ⟨c, hc, hd⟩ := h
            intro he
            have : c ∈ s.filter isAsciiDigit := List.mem_filter.2 ⟨hc, hd⟩
            rw [he] at this; cases this
          have : ∀ t : PStr, (∀ c ∈ t, isAsciiDigit c = true) → ∃ ds : List Nat, t.map digit = ds.map some := by
            intro t ht
            induction t with
            | nil => exact ⟨[], rfl⟩
            | cons c t ih =>
              obtain ⟨ds, hds⟩ := ih fun c hc => ht c (by simp [hc])
              obtain ⟨d, hd, rfl⟩ := hasc c (ht c (by simp))
              exact ⟨d :: ds, by simp [digit_digitChar hd, hds]⟩
          obtain ⟨ds, hds⟩ := this (s.filter isAsciiDigit) (fun c hc => (List.mem_filter.1 hc).2)
          exact ⟨_, hne, ds, hds, rfl⟩
        obtain ⟨n, hn⟩ := hdt
        rw [(adapt_text_iff s (.int n)).2 ⟨hf.1, hf.2, n, hn, rfl⟩] at ha
        cases ha
      · simp [creditCardType, ccFromString, hfil] at ha
        exact ha.symm
    subst this
    exact ⟨false, by unfold scalarSet; rw [ha]⟩

/-- **C07 (no other crash).** If the text contains an ASCII digit, `set` does not raise. -/
theorem C07_set_total_partial (st : ScalarState) (s : PStr) (h : ∃ c ∈ s, c ∈ digitSigns) :
    ∃ b, (scalarSet creditCardType st (.str s)).2 = .ok b := by
  simp only [← isAsciiDigit_iff] at h
  exact set_total_digit st s h

theorem set_raises_blank (st : ScalarState) (s : PStr) (er : PyErr) :
    (scalarSet creditCardType st (.str s)).2 = .error er ↔ er = .value ∧ 15 ≤ s.length ∧ ∀ c ∈ s, (space c = true ∨ c = '-') ∧ isAsciiDigit c = false := by
  constructor
  · intro h
    have hnd : ∀ c ∈ s, isAsciiDigit c = false := by
      intro c hc
      by_cases hd : isAsciiDigit c = true
      · obtain ⟨b, hb⟩ := set_total_digit st s ⟨c, hc, hd⟩
        rw [hb] at h; cases h
      · simpa using hd
    by_cases hfil : reFiller s = true
    · have h2 : reStrip s = [] := by
        simp only [reStrip, List.filter_eq_nil_iff]
        intro c hc; simp [hnd c hc]
      have h3 : creditCardType.adapt (.str s) = .error .value := by
        simp only [creditCardType, ccFromString, hfil, h2]
        simp [pyInt, strip, lstrip, rstrip, parseDigits]
      unfold scalarSet at h; rw [h3] at h
      unfold reFiller at hfil
      simp only [Bool.and_eq_true, decide_eq_true_eq, List.all_eq_true, Bool.or_eq_true, beq_iff_eq] at hfil
      refine ⟨by simpa using h.symm, hfil.1, fun c hc => ⟨?_, hnd c hc⟩⟩
      have := hfil.2 c hc
      simpa [hnd c hc] using this
    · have h3 : creditCardType.adapt (.str s) = .error .adaptation := by simp [creditCardType, ccFromString, hfil]
      unfold scalarSet at h; rw [h3] at h; cases h
  · rintro ⟨rfl, hl, hc⟩
    have h1 : reFiller s = true := by
      unfold reFiller
      simp only [Bool.and_eq_true, decide_eq_true_eq, List.all_eq_true, Bool.or_eq_true, beq_iff_eq]
      refine ⟨hl, fun c hc' => ?_⟩
      rcases (hc c hc').1 with h | h
      · exact .inl (.inr h)
      · exact .inr h
    have h2 : reStrip s = [] := by
      simp only [reStrip, List.filter_eq_nil_iff]
      intro c hc'; simp [(hc c hc').2]
    have h3 : creditCardType.adapt (.str s) = .error .value := by
      simp only [creditCardType, ccFromString, h1, h2]
      simp [pyInt, strip, lstrip, rstrip, parseDigits]
    unfold scalarSet; rw [h3]

/-- **C07 (exactly when `set` raises).** `set(text)` raises – a ValueError – exactly for fifteen or more characters that are all white
space or dashes. -/
theorem C07_set_raises_iff (st : ScalarState) (s : PStr) (er : PyErr) :
    (scalarSet creditCardType st (.str s)).2 = .error er ↔ er = .value ∧ 15 ≤ s.length ∧ ∀ c ∈ s, (space c = true ∨ c = '-') ∧ c ∉ digitSigns := by
  have h := set_raises_blank st s er
  simpa only [isAsciiDigit_iff, ascii_filter, ← Bool.not_eq_true] using h

/-- **C07 (disagreement).** Fourteen digit numbers (Diners Club) do not survive: the display form is rejected. -/
theorem C07_fourteen_digits_lost (n : Nat) (h : HasDigits 14 n) :
    ∃ u, creditCardType.serialize (.int n) = .ok u ∧ creditCardType.adapt (.str u) = .error .adaptation := by
  refine ⟨ccPretty n, rfl, ?_⟩
  have hl : (decimal n).length = 14 := by
    unfold HasDigits at h
    rw [show 14 = 13 + 1 from rfl, decimal_length_iff]
    refine ⟨.inl ?_, ?_⟩ <;> omega
  have : ccPretty n = decimal n := by
    unfold ccPretty
    simp [show decimalInt (n : Int) = decimal n from rfl, hl]
  rw [this]
  simp [creditCardType, ccFromString, reFiller, hl]

/-- Non-vacuity: numbers with 13, 15 and 16 digits exist in the hypotheses of `C07_display_roundtrip`. -/
example : HasDigits 13 (4222222222222 : Nat) ∧ (10 ^ 14 : Int) ≤ (378282246310005 : Nat) ∧
    (10 ^ 14 : Int) ≤ (4111111111111111 : Nat) := by
  unfold HasDigits; decide

/-! ## C08 – card types -/

/-- **C08.** A number is classed exactly by documented prefix and length – except that thirteen digit Visa numbers are
not recognised (`C08_visa13_rejected`), hence partial. -/
theorem C08_card_type_partial (n : Int) (t : CardType) :
    cardType n = some t ↔ IsCard t n ∧ ¬ HasPrefix 4 1 13 n := by
  cases n with
  | negSucc k =>
    have : cardType (Int.negSucc k) = none := by
      simp [cardType, decimalInt, rxVisa, rxMC, rxAmex, rxDisc, rxChars]
    rw [this]
    simp only [reduceCtorEq, false_iff]
    rintro ⟨h, _⟩
    cases t <;> simp only [IsCard, HasPrefix] at h
    · rcases h with h | h <;> omega
    · obtain ⟨p, h1, h2, h3, h4⟩ := h; omega
    · rcases h with h | h <;> omega
    · omega
  | ofNat k =>
    obtain ⟨ds, h1, h2, h3, d, ds', rfl, h5⟩ := decimal_digits k
    have hv := rxVisa_iff (d :: ds') h2
    have hm := rxMC_iff (d :: ds') h2
    have ha := rxAmex_iff (d :: ds') h2
    have hd := rxDisc_iff (d :: ds') h2
    -- numeric characterisations
    have nv : rxChars rxVisa ((d :: ds').map digitChar) = true ↔ HasPrefix 4 1 16 (Int.ofNat k) := by
      rw [hv]; unfold HasPrefix
      constructor
      · rintro ⟨rest, h, hl⟩
        cases h
        have := placeValue_lt ds' fun x hx => h2 x (by simp [hx])
        rw [hl] at this
        simp only [placeValue, hl] at h3
        simp only [Int.ofNat_eq_natCast]; omega
      · rintro ⟨h, h'⟩
        simp only [Int.ofNat_eq_natCast] at h h'
        have hl := length_of_range h2 (h5 (by omega)) (k := 15) (by omega) (by omega)
        have := placeValue_lt ds' fun x hx => h2 x (by simp [hx])
        rw [hl] at this
        simp only [placeValue, hl] at h3
        have : d = 4 := by omega
        subst this; exact ⟨ds', rfl, hl⟩
    have nm : rxChars rxMC ((d :: ds').map digitChar) = true ↔
        ∃ p : Nat, 51 ≤ p ∧ p ≤ 55 ∧ HasPrefix p 2 16 (Int.ofNat k) := by
      rw [hm]; unfold HasPrefix
      constructor
      · rintro ⟨b, rest, h, hb1, hb2, hl⟩
        cases h
        have := placeValue_lt rest fun x hx => h2 x (by simp [hx])
        rw [hl] at this
        simp only [placeValue, hl, List.length_cons] at h3
        refine ⟨50 + b, by omega, by omega, ?_⟩
        simp only [Int.ofNat_eq_natCast]; omega
      · rintro ⟨p, hp1, hp2, h, h'⟩
        simp only [Int.ofNat_eq_natCast] at h h'
        have hl := length_of_range h2 (h5 (by omega)) (k := 15) (by omega) (by omega)
        cases ds' with
        | nil => simp at hl
        | cons b rest =>
          have := placeValue_lt rest fun x hx => h2 x (by simp [hx])
          simp at hl
          rw [hl] at this
          have hb := h2 b (by simp)
          simp only [placeValue, hl, List.length_cons] at h3
          have : d = 5 := by omega
          subst this; exact ⟨b, rest, rfl, by omega, by omega, hl⟩
    have na : rxChars rxAmex ((d :: ds').map digitChar) = true ↔
        HasPrefix 34 2 15 (Int.ofNat k) ∨ HasPrefix 37 2 15 (Int.ofNat k) := by
      rw [ha]; unfold HasPrefix
      constructor
      · rintro ⟨b, rest, h, hb, hl⟩
        cases h
        have := placeValue_lt rest fun x hx => h2 x (by simp [hx])
        rw [hl] at this
        simp only [placeValue, hl, List.length_cons, Nat.reducePow, Nat.reduceAdd] at h3 this
        simp [Int.ofNat_eq_natCast]; clear hv hm ha hd nv nm h2 h1; omega
      · intro h
        simp only [Int.ofNat_eq_natCast] at h
        have hl := length_of_range h2 (h5 (by omega)) (k := 14) (by omega) (by omega)
        cases ds' with
        | nil => simp at hl
        | cons b rest =>
          have := placeValue_lt rest fun x hx => h2 x (by simp [hx])
          simp at hl
          rw [hl] at this
          have hb := h2 b (by simp)
          simp only [placeValue, hl, List.length_cons, Nat.reducePow, Nat.reduceAdd] at h3 this
          simp at h
          clear hv hm ha hd nv nm h1
          have : d = 3 := by omega
          subst this; exact ⟨b, rest, rfl, by omega, hl⟩
    have nd : rxChars rxDisc ((d :: ds').map digitChar) = true ↔ HasPrefix 6011 4 16 (Int.ofNat k) := by
      rw [hd]; unfold HasPrefix
      constructor
      · rintro ⟨rest, h, hl⟩
        cases h
        have := placeValue_lt rest fun x hx => h2 x (by simp [hx])
        rw [hl] at this
        simp only [placeValue, hl, List.length_cons] at h3
        simp only [Int.ofNat_eq_natCast]; omega
      · rintro ⟨h, h'⟩
        simp only [Int.ofNat_eq_natCast] at h h'
        have hl := length_of_range h2 (h5 (by omega)) (k := 15) (by omega) (by omega)
        match ds', hl with
        | b :: c :: e :: rest, hl =>
          have := placeValue_lt rest fun x hx => h2 x (by simp [hx])
          simp at hl
          rw [hl] at this
          have hb := h2 b (by simp)
          have hc := h2 c (by simp)
          have he := h2 e (by simp)
          simp only [placeValue, hl, List.length_cons] at h3
          have e1 : d = 6 := by omega
          subst e1
          have e2 : b = 0 := by omega
          subst e2
          have e3 : c = 1 := by omega
          subst e3
          have e4 : e = 1 := by omega
          subst e4
          exact ⟨rest, rfl, hl⟩
    unfold cardType
    simp only [decimalInt, h1]
    -- the classes are disjoint
    have dj : ∀ {a b : Prop}, (a → ¬ b) → a → ¬ b := fun h => h
    by_cases c1 : HasPrefix 4 1 16 (Int.ofNat k)
    · rw [if_pos (nv.2 c1)]
      have n13 : ¬ HasPrefix 4 1 13 (Int.ofNat k) := by unfold HasPrefix at *; omega
      cases t
      · simp only [true_iff]; exact ⟨.inl c1, n13⟩
      all_goals simp only [Option.some.injEq, reduceCtorEq, false_iff]
      all_goals rintro ⟨h, _⟩; simp only [IsCard, HasPrefix] at h c1
      · obtain ⟨p, _, _, _, _⟩ := h; omega
      · omega
      · omega
    · rw [if_neg (fun h => c1 (nv.1 h))]
      by_cases c2 : ∃ p : Nat, 51 ≤ p ∧ p ≤ 55 ∧ HasPrefix p 2 16 (Int.ofNat k)
      · rw [if_pos (nm.2 c2)]
        have n13 : ¬ HasPrefix 4 1 13 (Int.ofNat k) := by
          obtain ⟨p, _, _, h⟩ := c2
          unfold HasPrefix at *; omega
        cases t
        case masterCard => simp only [true_iff]; exact ⟨c2, n13⟩
        all_goals simp only [Option.some.injEq, reduceCtorEq, false_iff]
        all_goals rintro ⟨h, _⟩; simp only [IsCard, HasPrefix] at h c2; obtain ⟨p, _, _, _, _⟩ := c2; omega
      · rw [if_neg (fun h => c2 (nm.1 h))]
        by_cases c3 : HasPrefix 34 2 15 (Int.ofNat k) ∨ HasPrefix 37 2 15 (Int.ofNat k)
        · rw [if_pos (na.2 c3)]
          have n13 : ¬ HasPrefix 4 1 13 (Int.ofNat k) := by unfold HasPrefix at *; omega
          cases t
          case amex => simp only [true_iff]; exact ⟨c3, n13⟩
          all_goals simp only [Option.some.injEq, reduceCtorEq, false_iff]
          all_goals rintro ⟨h, _⟩; simp only [IsCard, HasPrefix] at h c3
          · omega
          · obtain ⟨p, _, _, _, _⟩ := h; omega
          · omega
        · rw [if_neg (fun h => c3 (na.1 h))]
          by_cases c4 : HasPrefix 6011 4 16 (Int.ofNat k)
          · rw [if_pos (nd.2 c4)]
            have n13 : ¬ HasPrefix 4 1 13 (Int.ofNat k) := by unfold HasPrefix at *; omega
            cases t
            case discover => simp only [true_iff]; exact ⟨c4, n13⟩
            all_goals simp only [Option.some.injEq, reduceCtorEq, false_iff]
            all_goals rintro ⟨h, _⟩
            · simp only [IsCard, HasPrefix] at h c4; omega
            · exact c2 h
            · exact c3 h
          · rw [if_neg (fun h => c4 (nd.1 h))]
            simp only [reduceCtorEq, false_iff]
            rintro ⟨h, h13⟩
            cases t
            · rcases h with h | h
              · exact c1 h
              · exact h13 h
            · exact c2 h
            · exact c3 h
            · exact c4 h

/-- **C08 (disagreement).** No thirteen digit Visa number is recognised: `\d{3}?` in the pattern is lazy, not optional. -/
theorem C08_visa13_rejected (n : Int) (h : HasPrefix 4 1 13 n) : IsCard .visa n ∧ cardType n = none := by
  refine ⟨.inr h, ?_⟩
  cases hc : cardType n with
  | none => rfl
  | some t => exact absurd h ((C08_card_type_partial n t).1 hc).2

omit [Runtime] in
/-- **C08 (exclusive).** The documented classes are mutually exclusive. -/
theorem C08_exclusive (n : Int) (t t' : CardType) (h : IsCard t n) (h' : IsCard t' n) : t = t' := by
  cases t <;> cases t' <;> simp only [IsCard, HasPrefix] at h h' <;> first | rfl | omega | skip
  all_goals first
    | (obtain ⟨p, _, _, _, _⟩ := h; omega)
    | (obtain ⟨p, _, _, _, _⟩ := h'; omega)

/-- **C08 (AcceptedType).** The validator accepts exactly the numbers whose class is among the accepted ones. -/
theorem C08_accepted_iff (accepted : List CardType) (n : Int) :
    acceptedType accepted n = true ↔ ∃ t ∈ accepted, IsCard t n ∧ ¬ HasPrefix 4 1 13 n := by
  unfold acceptedType
  constructor
  · intro h
    split at h
    · rename_i t ht
      exact ⟨t, by simpa using h, (C08_card_type_partial n t).1 ht⟩
    · cases h
  · rintro ⟨t, ht, hc⟩
    rw [(C08_card_type_partial n t).2 hc]
    simpa using ht

/-- Non-vacuity: one number of each class. -/
example :
    cardType 4111111111111111 = some .visa ∧ cardType 5555555555554444 = some .masterCard ∧
    cardType 378282246310005 = some .amex ∧ cardType 6011111111111117 = some .discover ∧
    cardType 4222222222222 = none := by
  refine ⟨(C08_card_type_partial _ _).2 ?_, (C08_card_type_partial _ _).2 ?_, (C08_card_type_partial _ _).2 ?_,
    (C08_card_type_partial _ _).2 ?_, (C08_visa13_rejected _ ?_).2⟩ <;> simp only [IsCard, HasPrefix]
  · omega
  · exact ⟨⟨55, by omega⟩, by omega⟩
  all_goals omega

end Flatland
