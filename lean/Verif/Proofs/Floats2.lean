import Verif.Proofs.Floats
/-
Helper lemmas for C85: the texts of numbers.
-/
namespace Flatland
open Spec

variable [Runtime] [NumberRuntime]

omit [NumberRuntime] in
theorem isDigitChar_iff (c : Char) : isDigitChar c = true ↔ ∃ d, digit c = some d := by
  simp [isDigitChar, Option.isSome_iff_exists]

omit [NumberRuntime] in
theorem isDigitChar_false {c : Char} (h : digit c = none) : isDigitChar c = false := by simp [isDigitChar, h]

omit [NumberRuntime] in
theorem digits_iff (s : PStr) : AllDigits s ↔ s.all isDigitChar = true := by
  simp [AllDigits, isDigitChar_iff]

omit [Runtime] [NumberRuntime] in
theorem takeWhile_append_stop {α} {p : α → Bool} {l r : List α} (hl : ∀ c ∈ l, p c = true) (hr : ∀ c, r.head? = some c → p c = false) :
    (l ++ r).takeWhile p = l ∧ (l ++ r).dropWhile p = r := by
  induction l with
  | nil => cases r with
    | nil => simp
    | cons a r => simp [hr a rfl]
  | cons a l ih =>
    have := ih (fun c h => hl c (List.mem_cons_of_mem _ h))
    simp [hl a (by simp), this]

omit [Runtime] [NumberRuntime] in
theorem toLower_letter {c l : Char} (h : c.toLower = l) (h1 : 'a' ≤ l) (h2 : l ≤ 'z') : ('a' ≤ c ∧ c ≤ 'z') ∨ ('A' ≤ c ∧ c ≤ 'Z') := by
  unfold Char.toLower at h
  split at h
  · rename_i hc
    right
    simpa [Char.le_def, UInt32.le_iff_toNat_le] using hc
  · subst h; exact .inl ⟨h1, h2⟩

/-- a text whose lower case starts with a letter does not start with a digit, a point or a sign -/
theorem lower_head {s w : PStr} {l : Char} (h : s.map Char.toLower = l :: w) (h1 : 'a' ≤ l) (h2 : l ≤ 'z') :
    ∃ c t, s = c :: t ∧ digit c = none ∧ space c = false ∧ c ≠ '.' ∧ c ≠ '+' ∧ c ≠ '-' := by
  cases s with
  | nil => simp at h
  | cons c t =>
    simp only [List.map_cons, List.cons.injEq] at h
    have hl := toLower_letter h.1 h1 h2
    refine ⟨c, t, rfl, NumberRuntime.letter_not_digit c hl, NumberRuntime.letter_not_space c hl, ?_, ?_, ?_⟩ <;>
    · rintro rfl
      revert hl
      decide

theorem exp_not_digit {c : Char} (h : c ∈ ['e', 'E']) : digit c = none := by
  apply NumberRuntime.letter_not_digit
  simp at h
  rcases h with rfl | rfl <;> decide

omit [NumberRuntime] in
theorem digitText_head {s : PStr} {n : Nat} (h : DigitText s n) : ∃ c t d, s = c :: t ∧ digit c = some d := by
  cases s with
  | nil => exact absurd rfl h.1
  | cons c t =>
    obtain ⟨d, hd⟩ := digitText_mem h (c := c) (by simp)
    exact ⟨c, t, d, rfl, hd⟩

omit [Runtime] [NumberRuntime] in
theorem signOf_other {s : PStr} (h : ∀ c, s.head? = some c → c ≠ '+' ∧ c ≠ '-') : signOf s = (false, s) := by
  cases s with
  | nil => rfl
  | cons c t =>
    have := h c rfl
    unfold signOf
    split
    · simp_all
    · simp_all
    · rfl

omit [Runtime] [NumberRuntime] in
theorem signOf_append {sg r : PStr} {neg : Bool} (hs : Sign sg neg) (h : ∀ c, r.head? = some c → c ≠ '+' ∧ c ≠ '-') :
    signOf (sg ++ r) = (neg, r) := by
  cases hs with
  | nothing => exact signOf_other h
  | plus => rfl
  | minus => rfl

omit [Runtime] [NumberRuntime] in
theorem signOf_spec (s : PStr) : ∃ sg, Sign sg (signOf s).1 ∧ s = sg ++ (signOf s).2 := by
  unfold signOf
  split
  · exact ⟨_, .minus, rfl⟩
  · exact ⟨_, .plus, rfl⟩
  · exact ⟨_, .nothing, rfl⟩

omit [NumberRuntime] in
theorem digit_not_sign {c : Char} {d : Nat} (h : digit c = some d) : c ≠ '+' ∧ c ≠ '-' := by
  constructor
  · rintro rfl; rw [Runtime.plus_not_digit] at h; simp at h
  · rintro rfl; rw [Runtime.minus_not_digit] at h; simp at h

omit [NumberRuntime] in
theorem exponentOf_iff (s : PStr) (x : Int) : exponentOf s = some x ↔ Exponent s x := by
  constructor
  · intro h
    cases s with
    | nil => simp only [exponentOf, Option.some.injEq] at h; subst h; exact .nothing
    | cons c s =>
      simp only [exponentOf] at h
      split at h
      · rename_i hc
        have hc : c ∈ ['e', 'E'] := by simpa using hc
        obtain ⟨n, hn, rfl⟩ := Option.map_eq_some_iff.mp h
        have hd := (digitText_iff _ _).mpr hn
        obtain ⟨sg, hsg, hs⟩ := signOf_spec s
        generalize (signOf s).1 = neg at hsg ⊢
        generalize (signOf s).2 = r at hs hd
        subst hs
        cases hsg with
        | nothing => exact .plain hc hd
        | plus => exact .plus hc hd
        | minus => exact .minus hc hd
      · simp at h
  · intro h
    cases h with
    | nothing => rfl
    | @plain c s n hc hd =>
      obtain ⟨a, t, d, rfl, ha⟩ := digitText_head hd
      have hso : signOf (a :: t) = (false, a :: t) := signOf_other (by simpa using digit_not_sign ha)
      simp only [exponentOf]
      rw [if_pos (by simpa using hc), hso, (digitText_iff _ _).mp hd]
      simp
    | @plus c s n hc hd =>
      simp only [exponentOf]
      rw [if_pos (by simpa using hc)]
      simp [signOf, (digitText_iff _ _).mp hd]
    | @minus c s n hc hd =>
      simp only [exponentOf]
      rw [if_pos (by simpa using hc)]
      simp [signOf, (digitText_iff _ _).mp hd]

theorem exponent_head {x : PStr} {e : Int} (h : Exponent x e) : ∀ c, x.head? = some c → digit c = none ∧ c ≠ '.' := by
  have key : ∀ c : Char, c ∈ ['e', 'E'] → digit c = none ∧ c ≠ '.' := by
    intro c hc
    refine ⟨exp_not_digit hc, ?_⟩
    rintro rfl
    revert hc; decide
  cases h with
  | nothing => simp
  | plain hc => simpa using key _ hc
  | plus hc => simpa using key _ hc
  | minus hc => simpa using key _ hc

omit [NumberRuntime] in
theorem mantissa_head {m : PStr} {n k : Nat} (h : Mantissa m n k) : ∃ c t, m = c :: t ∧ ((∃ d, digit c = some d) ∨ c = '.') := by
  cases h with
  | whole hd => obtain ⟨c, t, d, rfl, h⟩ := digitText_head hd; exact ⟨c, t, rfl, .inl ⟨d, h⟩⟩
  | @point w f n hw hf hd =>
    cases w with
    | nil => exact ⟨'.', f, rfl, .inr rfl⟩
    | cons c w => exact ⟨c, _, rfl, .inl (hw c (by simp))⟩

omit [NumberRuntime] in
theorem allDigits_all {s : PStr} (h : AllDigits s) : ∀ c ∈ s, isDigitChar c = true := fun c hc => (isDigitChar_iff c).mpr (h c hc)

omit [NumberRuntime] in
theorem fractionOf_other {r : PStr} (h : ¬ ∃ t, r = '.' :: t) : fractionOf r = ([], r) := by
  unfold fractionOf
  split
  · exact absurd ⟨_, rfl⟩ h
  · rfl

theorem finiteOf_iff (neg : Bool) (s : PStr) (v : NumText) :
    finiteOf neg s = some v ↔ ∃ m x n k e, s = m ++ x ∧ Mantissa m n k ∧ Exponent x e ∧ v = .num neg n (e - k) := by
  constructor
  · intro h
    simp only [finiteOf] at h
    have hsplit : s = s.takeWhile isDigitChar ++ s.dropWhile isDigitChar := (List.takeWhile_append_dropWhile).symm
    have hw : AllDigits (s.takeWhile isDigitChar) := (digits_iff _).mpr List.all_takeWhile
    generalize s.takeWhile isDigitChar = w at *
    generalize s.dropWhile isDigitChar = r at *
    split at h
    · rename_i n e hn he
      simp only [Option.some.injEq] at h
      subst h
      have he := (exponentOf_iff _ _).mp he
      have hd := (digitText_iff _ _).mpr hn
      by_cases hr : ∃ t, r = '.' :: t
      · obtain ⟨t, rfl⟩ := hr
        have hf : AllDigits (t.takeWhile isDigitChar) := (digits_iff _).mpr List.all_takeWhile
        refine ⟨w ++ '.' :: t.takeWhile isDigitChar, t.dropWhile isDigitChar, n, _, e, ?_, .point hw hf hd, he, rfl⟩
        rw [hsplit]; simp
      · rw [fractionOf_other hr] at he hd ⊢
        exact ⟨w, r, n, 0, e, hsplit, .whole (by simpa using hd), he, by simp⟩
    · simp at h
  · rintro ⟨m, x, n, k, e, rfl, hm, hx, rfl⟩
    have hxh := exponent_head hx
    have hx' := (exponentOf_iff _ _).mpr hx
    cases hm with
    | whole hd =>
      obtain ⟨h1, h2⟩ := takeWhile_append_stop (p := isDigitChar) (l := m) (r := x)
        (fun c hc => (isDigitChar_iff c).mpr (digitText_mem hd hc)) (fun c hc => isDigitChar_false (hxh c hc).1)
      have hf : fractionOf x = ([], x) := by
        unfold fractionOf
        split
        · exact absurd rfl (hxh '.' rfl).2
        · rfl
      simp only [finiteOf, h1, h2, hf, List.append_nil, (digitText_iff _ _).mp hd, hx']
      simp
    | @point w f n hw hf hd =>
      obtain ⟨h1, h2⟩ := takeWhile_append_stop (p := isDigitChar) (l := w) (r := '.' :: (f ++ x))
        (allDigits_all hw) (by simpa using isDigitChar_false NumberRuntime.dot_not_digit)
      obtain ⟨h3, h4⟩ := takeWhile_append_stop (p := isDigitChar) (l := f) (r := x)
        (allDigits_all hf) (fun c hc => isDigitChar_false (hxh c hc).1)
      have ha : w ++ '.' :: f ++ x = w ++ '.' :: (f ++ x) := by simp
      have hfr : fractionOf ('.' :: (f ++ x)) = (f, x) := by simp only [fractionOf, h3, h4]
      simp only [finiteOf, ha, h1, h2, hfr, (digitText_iff _ _).mp hd, hx']

omit [NumberRuntime] in
theorem prefix_lower {w : PStr} (s : PStr) : (w.isPrefixOf (s.map Char.toLower) = true ∧ (s.drop w.length).all isDigitChar = true) ↔
    ∃ t ds, s = t ++ ds ∧ t.map Char.toLower = w ∧ AllDigits ds := by
  constructor
  · rintro ⟨h1, h2⟩
    obtain ⟨r, hr⟩ := List.isPrefixOf_iff_prefix.mp h1
    refine ⟨s.take w.length, s.drop w.length, (List.take_append_drop _ _).symm, ?_, (digits_iff _).mpr h2⟩
    rw [List.map_take, ← hr]; simp
  · rintro ⟨t, ds, rfl, rfl, hd⟩
    refine ⟨?_, ?_⟩
    · rw [List.isPrefixOf_iff_prefix, List.map_append]; exact List.prefix_append _ _
    · simpa using (digits_iff ds).mp hd

omit [NumberRuntime] in
theorem wordOf_inf (dec neg b : Bool) (s : PStr) : wordOf dec neg s = some (.inf b) ↔
    b = neg ∧ (s.map Char.toLower = "inf".toList ∨ s.map Char.toLower = "infinity".toList) := by
  simp only [wordOf]
  split
  · rename_i h
    simp only [Option.some.injEq, NumText.inf.injEq, h, and_true]; exact eq_comm
  · rename_i h
    split
    · simp only [Option.some.injEq, reduceCtorEq, false_iff]; exact fun hh => h hh.2
    · split
      · simp only [Option.some.injEq, reduceCtorEq, false_iff]; exact fun hh => h hh.2
      · simp only [reduceCtorEq, false_iff]; exact fun hh => h hh.2

omit [NumberRuntime] in
theorem wordOf_float_nan (neg b : Bool) (s : PStr) : wordOf false neg s = some (.nan b) ↔
    b = false ∧ s.map Char.toLower = "nan".toList := by
  simp only [wordOf]
  split
  · rename_i h
    simp only [Option.some.injEq, reduceCtorEq, false_iff, not_and]
    rintro - hn
    rw [hn] at h
    revert h; decide
  · rename_i h
    split
    · rename_i h'; simp at h'; simp [h', eq_comm]
    · rename_i h'; simp at h' ⊢; exact fun _ => h'

omit [NumberRuntime] in
theorem wordOf_dec_nan (neg b : Bool) (s : PStr) : wordOf true neg s = some (.nan b) ↔
    ∃ t ds, s = t ++ ds ∧ t.map Char.toLower = (if b then "snan".toList else "nan".toList) ∧ AllDigits ds := by
  have hnan := prefix_lower (w := "nan".toList) s
  have hsnan := prefix_lower (w := "snan".toList) s
  simp only [show ("nan".toList).length = 3 from rfl, show ("snan".toList).length = 4 from rfl] at hnan hsnan
  have hfull : s.map Char.toLower = "nan".toList → ∃ t ds, s = t ++ ds ∧ t.map Char.toLower = "nan".toList ∧ AllDigits ds :=
    fun h => ⟨s, [], by simp, h, by simp [AllDigits]⟩
  have ex1 : (∃ t ds, s = t ++ ds ∧ t.map Char.toLower = "nan".toList ∧ AllDigits ds) →
      ¬ (s.map Char.toLower = "inf".toList ∨ s.map Char.toLower = "infinity".toList) := by
    rintro ⟨t, ds, rfl, ht, -⟩
    rw [List.map_append, ht]; rintro (h | h) <;> simp at h
  have ex2 : (∃ t ds, s = t ++ ds ∧ t.map Char.toLower = "snan".toList ∧ AllDigits ds) →
      ¬ (s.map Char.toLower = "inf".toList ∨ s.map Char.toLower = "infinity".toList) := by
    rintro ⟨t, ds, rfl, ht, -⟩
    rw [List.map_append, ht]; rintro (h | h) <;> simp at h
  have ex3 : (∃ t ds, s = t ++ ds ∧ t.map Char.toLower = "snan".toList ∧ AllDigits ds) →
      ¬ (∃ t ds, s = t ++ ds ∧ t.map Char.toLower = "nan".toList ∧ AllDigits ds) := by
    rintro ⟨t, ds, hs, ht, -⟩ ⟨t', ds', hs', ht', -⟩
    have h1 : s.map Char.toLower = "snan".toList ++ ds.map Char.toLower := by rw [hs, List.map_append, ht]
    have h2 : s.map Char.toLower = "nan".toList ++ ds'.map Char.toLower := by rw [hs', List.map_append, ht']
    rw [h1] at h2; simp at h2
  simp only [wordOf, true_and]
  have hor : (s.map Char.toLower = "nan".toList ∨ ("nan".toList.isPrefixOf (s.map Char.toLower) = true ∧ (s.drop 3).all isDigitChar = true)) ↔
      ∃ t ds, s = t ++ ds ∧ t.map Char.toLower = "nan".toList ∧ AllDigits ds := by
    rw [hnan]; exact ⟨fun h => h.elim hfull id, .inr⟩
  by_cases h1 : s.map Char.toLower = "inf".toList ∨ s.map Char.toLower = "infinity".toList
  · rw [if_pos h1]
    simp only [Option.some.injEq, reduceCtorEq, false_iff]
    cases b
    · exact fun h => ex1 h h1
    · exact fun h => ex2 h h1
  · rw [if_neg h1]
    by_cases h2 : ∃ t ds, s = t ++ ds ∧ t.map Char.toLower = "nan".toList ∧ AllDigits ds
    · rw [if_pos (hor.mpr h2)]
      cases b
      · simpa using h2
      · simp only [Option.some.injEq, NumText.nan.injEq, Bool.false_eq_true, false_iff]
        exact fun h => ex3 h h2
    · rw [if_neg (fun h => h2 (hor.mp h))]
      by_cases h3 : ∃ t ds, s = t ++ ds ∧ t.map Char.toLower = "snan".toList ∧ AllDigits ds
      · rw [if_pos (hsnan.mpr h3)]
        cases b
        · simp only [Option.some.injEq, NumText.nan.injEq, Bool.true_eq_false, false_iff]; exact h2
        · simpa using h3
      · rw [if_neg (fun h => h3 (hsnan.mp h))]
        simp only [reduceCtorEq, false_iff]
        cases b
        · exact h2
        · exact h3

omit [NumberRuntime] in
theorem wordOf_num (dec neg b : Bool) (n : Nat) (e : Int) (s : PStr) : wordOf dec neg s ≠ some (.num b n e) := by
  simp only [wordOf]
  split
  · simp
  · split
    · simp
    · split <;> simp

/-- what a word starts with -/
theorem wordOf_head {dec neg : Bool} {s : PStr} {v : NumText} (h : wordOf dec neg s = some v) :
    ∃ c t, s = c :: t ∧ digit c = none ∧ space c = false ∧ c ≠ '.' ∧ c ≠ '+' ∧ c ≠ '-' := by
  simp only [wordOf] at h
  split at h
  · rename_i h1
    rcases h1 with h1 | h1
    · exact lower_head (l := 'i') h1 (by decide) (by decide)
    · exact lower_head (l := 'i') h1 (by decide) (by decide)
  · split at h
    · rename_i h1
      rcases h1 with h1 | ⟨-, h1, -⟩
      · exact lower_head (l := 'n') h1 (by decide) (by decide)
      · obtain ⟨r, hr⟩ := List.isPrefixOf_iff_prefix.mp h1
        exact lower_head (l := 'n') hr.symm (by decide) (by decide)
    · split at h
      · rename_i h1
        obtain ⟨r, hr⟩ := List.isPrefixOf_iff_prefix.mp h1.2.1
        exact lower_head (l := 's') hr.symm (by decide) (by decide)
      · simp at h

theorem numText_num (dec neg : Bool) (s : PStr) (c : Nat) (e : Int) : numText dec s = some (.num neg c e) ↔ Numeral s neg c e := by
  constructor
  · intro h
    simp only [numText] at h
    split at h
    · rename_i v hv
      rw [h] at hv
      exact absurd hv (wordOf_num _ _ _ _ _ _)
    · obtain ⟨m, x, n, k, ex, hs, hm, hx, hv⟩ := (finiteOf_iff _ _ _).mp h
      obtain ⟨sg, hsg, hss⟩ := signOf_spec s
      simp only [NumText.num.injEq] at hv
      generalize signOf s = p at *
      obtain ⟨rfl, rfl, rfl⟩ := hv
      rw [hss, hs, ← List.append_assoc]
      exact .intro hsg hm hx
  · intro h
    cases h with
    | @intro sg m x neg n k e hsg hm hx =>
      obtain ⟨a, t, hmt, ha⟩ := mantissa_head hm
      have hne : ∀ b, (m ++ x).head? = some b → b ≠ '+' ∧ b ≠ '-' := by
        intro b hb
        rw [hmt] at hb
        simp only [List.cons_append, List.head?_cons, Option.some.injEq] at hb
        subst hb
        rcases ha with ⟨d, hd⟩ | rfl
        · exact digit_not_sign hd
        · decide
      rw [List.append_assoc]
      simp only [numText, signOf_append hsg hne]
      have hw : wordOf dec neg (m ++ x) = none := by
        cases hw : wordOf dec neg (m ++ x) with
        | none => rfl
        | some v =>
          obtain ⟨b, t', hb, h1, -, h2, -⟩ := wordOf_head hw
          rw [hmt] at hb
          simp only [List.cons_append, List.cons.injEq] at hb
          obtain ⟨rfl, -⟩ := hb
          rcases ha with ⟨d, hd⟩ | rfl
          · rw [hd] at h1; simp at h1
          · exact absurd rfl h2
      rw [hw]
      exact (finiteOf_iff _ _ _).mpr ⟨m, x, _, _, _, rfl, hm, hx, rfl⟩

theorem numText_word {dec : Bool} {s : PStr} {v : NumText} (hv : ∀ b c e, v ≠ .num b c e) :
    numText dec s = some v ↔ ∃ sg r neg, s = sg ++ r ∧ Sign sg neg ∧ wordOf dec neg r = some v := by
  constructor
  · intro h
    simp only [numText] at h
    split at h
    · rename_i w hw
      obtain ⟨sg, hsg, hss⟩ := signOf_spec s
      rw [h] at hw
      exact ⟨sg, _, _, hss, hsg, hw⟩
    · obtain ⟨m, x, n, k, ex, hs, hm, hx, hv'⟩ := (finiteOf_iff _ _ _).mp h
      exact absurd hv' (hv _ _ _)
  · rintro ⟨sg, r, neg, rfl, hsg, hw⟩
    obtain ⟨c, t, hr, -, -, -, h1, h2⟩ := wordOf_head hw
    have : signOf (sg ++ r) = (neg, r) := signOf_append hsg (by rw [hr]; simpa using ⟨h1, h2⟩)
    simp only [numText, this, hw]

omit [Runtime] [NumberRuntime] in
theorem decSize_eq (c : Nat) (e : Int) : (c : ℚ) * pow10 e = decSize c e := by rw [pow10_eq]; rfl

omit [Runtime] [NumberRuntime] in
theorem decSize_nonneg (c : Nat) (e : Int) : 0 ≤ decSize c e := by unfold decSize; positivity

omit [Runtime] [NumberRuntime] in
/-- the nearest float is one -/
theorem nearest_unique {q d d' : ℚ} (h : NearestDouble q d) (h' : NearestDouble q d') : d = d' := by
  by_contra hne
  have heq : |d' - q| = |d - q| := le_antisymm (h'.2.1 d h.1) (h.2.1 d' h'.1)
  obtain ⟨j, hj⟩ := h.2.2 d' h'.1 (fun hh => hne hh.symm) heq
  obtain ⟨i, hi⟩ := h'.2.2 d h.1 hne heq.symm
  rw [abs_sub_comm] at hi
  have hpos : 0 < |d - d'| := abs_pos.mpr (sub_ne_zero.mpr hne)
  generalize hs : |d - d'| = s at hj hi hpos
  have h1 : d - d' = (2 * ((j : ℤ) - i) : ℤ) * s := by rw [hj, hi]; push_cast; ring
  have h2 : |((2 * ((j : ℤ) - i) : ℤ) : ℚ)| * s = s := by
    rw [h1, abs_mul, abs_of_pos hpos] at hs; exact hs
  have h3 : |((2 * ((j : ℤ) - i) : ℤ) : ℚ)| = 1 := by
    have : |((2 * ((j : ℤ) - i) : ℤ) : ℚ)| * s = 1 * s := by rw [h2, one_mul]
    exact mul_right_cancel₀ hpos.ne' this
  have h4 : |(2 * ((j : ℤ) - i) : ℤ)| = 1 := by exact_mod_cast h3
  rcases (abs_eq (by norm_num)).mp h4 with h | h <;> omega

omit [Runtime] [NumberRuntime] in
theorem floatOfSize_iff {q : ℚ} (hq : 0 ≤ q) (neg : Bool) (x : FloatVal) : floatOfSize neg q = x ↔
    (TooLarge q ∧ x = .inf neg) ∨ (¬ TooLarge q ∧ ∃ d, NearestDouble q d ∧ x = .fin neg d) := by
  unfold floatOfSize
  cases h : toDouble q with
  | none =>
    have := (toDouble_none hq).mp h
    simp [this, eq_comm]
  | some d =>
    have hn : ¬ TooLarge q := fun hh => by rw [(toDouble_none hq).mpr hh] at h; simp at h
    have hd := toDouble_nearest hq h
    simp only [hn, false_and, not_false_eq_true, true_and, false_or]
    constructor
    · rintro rfl; exact ⟨d, hd, rfl⟩
    · rintro ⟨d', hd', rfl⟩; rw [nearest_unique hd hd']

theorem floatOfText_iff (s : PStr) (x : FloatVal) : floatOfText s = .ok x ↔ FloatMeans s x := by
  constructor
  · intro h
    unfold floatOfText at h
    split at h
    · rename_i b hb
      obtain ⟨sg, r, neg, rfl, hsg, hw⟩ := (numText_word (by simp)).mp hb
      simp only [Except.ok.injEq] at h; subst h
      exact .nan (.intro hsg ((wordOf_float_nan _ _ _).mp hw).2)
    · rename_i b hb
      obtain ⟨sg, r, neg, rfl, hsg, hw⟩ := (numText_word (by simp)).mp hb
      simp only [Except.ok.injEq] at h; subst h
      obtain ⟨rfl, hw | hw⟩ := (wordOf_inf _ _ _ _).mp hw
      · exact .inf (.intro hsg hw)
      · exact .infinity (.intro hsg hw)
    · rename_i neg c e hb
      have hn := (numText_num _ _ _ _ _).mp hb
      simp only [Except.ok.injEq, decSize_eq] at h
      rcases (floatOfSize_iff (decSize_nonneg c e) neg x).mp h with ⟨h1, rfl⟩ | ⟨h1, d, h2, rfl⟩
      · exact .tooLarge hn h1
      · exact .number hn h1 h2
    · simp at h
  · intro h
    unfold floatOfText
    cases h with
    | number hn h1 h2 =>
      rw [(numText_num _ _ _ _ _).mpr hn]
      simp only [decSize_eq]
      exact congrArg _ ((floatOfSize_iff (decSize_nonneg _ _) _ _).mpr (.inr ⟨h1, _, h2, rfl⟩))
    | tooLarge hn h1 =>
      rw [(numText_num _ _ _ _ _).mpr hn]
      simp only [decSize_eq]
      exact congrArg _ ((floatOfSize_iff (decSize_nonneg _ _) _ _).mpr (.inl ⟨h1, rfl⟩))
    | inf hw =>
      cases hw with
      | intro hsg ht => rw [(numText_word (v := .inf _) (by simp)).mpr ⟨_, _, _, rfl, hsg, (wordOf_inf _ _ _ _).mpr ⟨rfl, .inl ht⟩⟩]
    | infinity hw =>
      cases hw with
      | intro hsg ht => rw [(numText_word (v := .inf _) (by simp)).mpr ⟨_, _, _, rfl, hsg, (wordOf_inf _ _ _ _).mpr ⟨rfl, .inr ht⟩⟩]
    | nan hw =>
      cases hw with
      | intro hsg ht => rw [(numText_word (v := .nan false) (by simp)).mpr ⟨_, _, _, rfl, hsg, (wordOf_float_nan _ _ _).mpr ⟨rfl, ht⟩⟩]

omit [NumberRuntime] in
theorem floatOfText_error {s : PStr} {e : PyErr} (h : floatOfText s = .error e) : e = .value := by
  unfold floatOfText at h
  split at h <;> simp_all

theorem decOfText_iff (s : PStr) (x : DecVal) : decOfText s = .ok x ↔ DecMeans s x := by
  constructor
  · intro h
    unfold decOfText at h
    split at h
    · rename_i b hb
      obtain ⟨sg, r, neg, rfl, hsg, hw⟩ := (numText_word (by simp)).mp hb
      simp only [Except.ok.injEq] at h; subst h
      obtain ⟨t, ds, rfl, ht, hd⟩ := (wordOf_dec_nan _ _ _).mp hw
      rw [← List.append_assoc]
      cases b
      · exact .nan (.intro hsg ht) hd
      · exact .snan (.intro hsg ht) hd
    · rename_i b hb
      obtain ⟨sg, r, neg, rfl, hsg, hw⟩ := (numText_word (by simp)).mp hb
      simp only [Except.ok.injEq] at h; subst h
      obtain ⟨rfl, hw | hw⟩ := (wordOf_inf _ _ _ _).mp hw
      · exact .inf (.intro hsg hw)
      · exact .infinity (.intro hsg hw)
    · rename_i neg c e hb
      simp only [Except.ok.injEq] at h; subst h
      exact .number ((numText_num _ _ _ _ _).mp hb)
    · simp at h
  · intro h
    unfold decOfText
    cases h with
    | number hn => rw [(numText_num _ _ _ _ _).mpr hn]
    | inf hw =>
      cases hw with
      | intro hsg ht => rw [(numText_word (v := .inf _) (by simp)).mpr ⟨_, _, _, rfl, hsg, (wordOf_inf _ _ _ _).mpr ⟨rfl, .inl ht⟩⟩]
    | infinity hw =>
      cases hw with
      | intro hsg ht => rw [(numText_word (v := .inf _) (by simp)).mpr ⟨_, _, _, rfl, hsg, (wordOf_inf _ _ _ _).mpr ⟨rfl, .inr ht⟩⟩]
    | nan hw hd =>
      cases hw with
      | intro hsg ht =>
        rw [List.append_assoc, (numText_word (v := .nan false) (by simp)).mpr ⟨_, _, _, rfl, hsg, (wordOf_dec_nan _ _ _).mpr ⟨_, _, rfl, ht, hd⟩⟩]
    | snan hw hd =>
      cases hw with
      | intro hsg ht =>
        rw [List.append_assoc, (numText_word (v := .nan true) (by simp)).mpr ⟨_, _, _, rfl, hsg, (wordOf_dec_nan _ _ _).mpr ⟨_, _, rfl, ht, hd⟩⟩]

omit [NumberRuntime] in
theorem decOfText_error {s : PStr} {e : PyErr} (h : decOfText s = .error e) : e = .arithmetic := by
  unfold decOfText at h
  split at h <;> simp_all

omit [Runtime] [NumberRuntime] in
theorem floatOfDec_iff (d : DecVal) (x : FloatVal) : floatOfDec d = .ok x ↔ DecAsFloat d x := by
  constructor
  · intro h
    cases d with
    | nan b => cases b <;> simp [floatOfDec] at h; subst h; exact .nan
    | inf neg => simp [floatOfDec] at h; subst h; exact .inf
    | fin neg c e =>
      simp only [floatOfDec, Except.ok.injEq, decSize_eq] at h
      rcases (floatOfSize_iff (decSize_nonneg c e) neg x).mp h with ⟨h1, rfl⟩ | ⟨h1, d, h2, rfl⟩
      · exact .tooLarge h1
      · exact .number h1 h2
  · intro h
    cases h with
    | number h1 h2 =>
      simp only [floatOfDec, decSize_eq]
      exact congrArg _ ((floatOfSize_iff (decSize_nonneg _ _) _ _).mpr (.inr ⟨h1, _, h2, rfl⟩))
    | tooLarge h1 =>
      simp only [floatOfDec, decSize_eq]
      exact congrArg _ ((floatOfSize_iff (decSize_nonneg _ _) _ _).mpr (.inl ⟨h1, rfl⟩))
    | inf => rfl
    | nan => rfl

end Flatland
