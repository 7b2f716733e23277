import Verif.Proofs.Floats3
import Mathlib.Data.Nat.Prime.Basic
/-
Proofs for C85: what setting a Float or Decimal element does.
-/
namespace Flatland
open Spec

section
variable [Runtime] [NumberRuntime]

omit [NumberRuntime] in
/-- what `set` does if `adapt` accepts an object -/
theorem scalarSet_obj {t : ScalarType} {st : ScalarState} {v : PyVal} {n : Nat} (h : t.adapt v = .ok (.obj n)) :
    scalarSet t st v = match t.serialize (.obj n) with
      | .ok u => (⟨.obj n, u, some v⟩, .ok true)
      | .error e => (⟨.obj n, st.u, some v⟩, .error e) := by
  unfold scalarSet
  rw [h]
  simp only
  cases t.serialize (.obj n) <;> rfl

omit [NumberRuntime] in
/-- what `set` does if `adapt` refuses -/
theorem scalarSet_refused {t : ScalarType} {st : ScalarState} {v : PyVal} (h : t.adapt v = .error .adaptation) (hv : v ≠ .none) :
    scalarSet t st v = (⟨.none, pyText v, some v⟩, .ok false) := by
  unfold scalarSet
  rw [h]
  cases v with
  | none => exact absurd rfl hv
  | _ => rfl

theorem input_ne_none {v : PyVal} (h : NumberInput v) : v ≠ .none := by
  cases h <;> simp [floatVal, decVal]

/-! ### Float -/

omit [Runtime] [NumberRuntime] in
theorem cast_natAbs (i : Int) : ((i.natAbs : ℕ) : ℚ) = |(i : ℚ)| := by
  rw [Nat.cast_natAbs, Int.cast_abs]

omit [Runtime] [NumberRuntime] in
theorem isDouble_zero : IsDouble 0 := ⟨0, 0, by norm_num, by norm_num, by norm_num, by norm_num⟩
omit [Runtime] [NumberRuntime] in
theorem isDouble_one : IsDouble 1 := ⟨1, 0, by norm_num, by norm_num, by norm_num, by norm_num⟩

omit [Runtime] [NumberRuntime] in
theorem floatOfInt_iff (i : Int) (x : FloatVal) : floatOfInt i = .ok x ↔
    ∃ d, ¬ TooLarge |(i : ℚ)| ∧ NearestDouble |(i : ℚ)| d ∧ x = .fin (decide (i < 0)) d := by
  unfold floatOfInt
  rw [cast_natAbs]
  cases h : toDouble |(i : ℚ)| with
  | none =>
    have := (toDouble_none (abs_nonneg _)).mp h
    simp [this]
  | some d =>
    have hn : ¬ TooLarge |(i : ℚ)| := fun hh => by rw [(toDouble_none (abs_nonneg _)).mpr hh] at h; simp at h
    have hd := toDouble_nearest (abs_nonneg _) h
    simp only [Except.ok.injEq, hn, not_false_eq_true, true_and]
    constructor
    · rintro rfl; exact ⟨d, hd, rfl⟩
    · rintro ⟨d', h', rfl⟩; rw [nearest_unique hd h']

theorem floatNew_iff {v : PyVal} (hv : NumberInput v) (x : FloatVal) : floatNew v = .ok x ↔ FloatOf v x := by
  cases hv with
  | @text s =>
    simp only [floatNew]
    rw [floatOfText_iff]
    exact ⟨.text, fun h => by cases h; assumption⟩
  | @int i =>
    simp only [floatNew]
    rw [floatOfInt_iff]
    constructor
    · rintro ⟨d, h1, h2, rfl⟩; exact .int h1 h2
    · intro h; cases h with | int h1 h2 => exact ⟨_, h1, h2, rfl⟩
  | @bool b =>
    cases b
    · have : floatNew (.bool false) = .ok (.fin false 0) := by
        have := toDouble_self isDouble_zero
        simp [floatNew, floatOfInt, this]
      rw [this]
      exact ⟨fun h => by cases h; exact .false, fun h => by cases h; rfl⟩
    · have : floatNew (.bool true) = .ok (.fin false 1) := by
        have := toDouble_self isDouble_one
        simp [floatNew, floatOfInt, this]
      rw [this]
      exact ⟨fun h => by cases h; exact .true, fun h => by cases h; rfl⟩
  | @float y hy =>
    have : floatNew (floatVal y) = .ok y := by simp [floatNew, floatVal, NumberRuntime.floatAt_id]
    rw [this]
    constructor
    · intro h; cases h; exact .float hy
    · intro h
      generalize hv : floatVal y = v at h
      cases h with
      | @float x hx =>
        simp only [floatVal, PyVal.obj.injEq] at hv
        have := congrArg floatAt hv
        simp only [NumberRuntime.floatAt_id, Option.some.injEq] at this
        rw [this]
      | @dec d x hx =>
        simp only [floatVal, decVal, PyVal.obj.injEq] at hv
        have := congrArg floatAt hv
        simp [NumberRuntime.floatAt_id, NumberRuntime.floatAt_dec] at this
      | _ => simp [floatVal] at hv
  | @dec d =>
    have : floatNew (decVal d) = floatOfDec d := by simp [floatNew, decVal, NumberRuntime.floatAt_dec, NumberRuntime.decAt_id]
    rw [this, floatOfDec_iff]
    constructor
    · exact .dec
    · intro h
      generalize hv : decVal d = v at h
      cases h with
      | @float x hx =>
        simp only [floatVal, decVal, PyVal.obj.injEq] at hv
        have := congrArg floatAt hv
        simp [NumberRuntime.floatAt_id, NumberRuntime.floatAt_dec] at this
      | @dec d x hx =>
        simp only [decVal, PyVal.obj.injEq] at hv
        have := congrArg decAt hv
        simp only [NumberRuntime.decAt_id, Option.some.injEq] at this
        rw [this]; exact hx
      | _ => simp [decVal] at hv

theorem floatNew_error {v : PyVal} (hv : NumberInput v) {e : PyErr} (h : floatNew v = .error e) : numberCatches e = true := by
  cases hv with
  | text => rw [floatOfText_error h]; rfl
  | @int i =>
    simp only [floatNew, floatOfInt] at h
    split at h <;> simp at h
    subst h; rfl
  | @bool b =>
    simp only [floatNew, floatOfInt] at h
    split at h <;> simp at h
    subst h; rfl
  | float => simp [floatNew, floatVal, NumberRuntime.floatAt_id] at h
  | @dec d =>
    have : floatNew (decVal d) = floatOfDec d := by simp [floatNew, decVal, NumberRuntime.floatAt_dec, NumberRuntime.decAt_id]
    rw [this] at h
    cases d with
    | nan b => cases b <;> simp [floatOfDec] at h; subst h; rfl
    | inf => simp [floatOfDec] at h
    | fin => simp [floatOfDec] at h

theorem floatOf_isFloat {v : PyVal} {x : FloatVal} (h : FloatOf v x) : IsFloat x := by
  cases h with
  | text h => exact floatMeans_isFloat h
  | int _ h => exact h.1
  | true => exact isDouble_one
  | false => exact isDouble_zero
  | float h => exact h
  | dec h => exact decAsFloat_isFloat h

theorem floatOf_input {v : PyVal} {x : FloatVal} (h : FloatOf v x) : NumberInput v := by
  cases h with
  | float h => exact .float h
  | text => exact .text
  | int => exact .int
  | true => exact .bool
  | false => exact .bool
  | dec => exact .dec

theorem float_set_ok {signed : Bool} {k : Nat} {st : ScalarState} {v : PyVal} {x : FloatVal} (h : FloatOf v x)
    (hs : signed = true ∨ ¬ BelowZero x) :
    scalarSet (floatType signed k) st v = (⟨floatVal x, floatText k x, some v⟩, .ok true) := by
  have hv := floatOf_input h
  have hne := input_ne_none hv
  have hn := (floatNew_iff hv x).mpr h
  have ha : (floatType signed k).adapt v = .ok (.obj (floatId x)) := by
    have : (!signed && floatNegative x) = false := by
      rcases hs with rfl | hs
      · rfl
      · rw [← belowZero_iff] at hs; simp [hs]
    simp only [floatType]
    cases v with
    | none => exact absurd rfl hne
    | _ => simp only [hn, this]; rfl
  rw [scalarSet_obj ha]
  simp [floatType, NumberRuntime.floatAt_id, floatVal]

theorem float_set_refused {signed : Bool} {k : Nat} {st : ScalarState} {v : PyVal} (hv : NumberInput v)
    (h : ∀ x, FloatOf v x → signed = false ∧ BelowZero x) :
    scalarSet (floatType signed k) st v = (⟨.none, pyText v, some v⟩, .ok false) := by
  have hne := input_ne_none hv
  refine scalarSet_refused ?_ hne
  cases hn : floatNew v with
  | error e =>
    have he := floatNew_error hv hn
    simp only [floatType]
    cases v with
    | none => exact absurd rfl hne
    | _ => simp only [hn, he, if_true]
  | ok x =>
    obtain ⟨rfl, h2⟩ := h x ((floatNew_iff hv x).mp hn)
    rw [← belowZero_iff] at h2
    simp only [floatType]
    cases v with
    | none => exact absurd rfl hne
    | _ => simp only [hn, h2, Bool.not_false, Bool.and_self, if_true]

/-- text is either taken or refused -/
theorem float_cases (signed : Bool) {v : PyVal} (hv : NumberInput v) :
    (∃ x, FloatOf v x ∧ (signed = true ∨ ¬ BelowZero x)) ∨ ∀ x, FloatOf v x → signed = false ∧ BelowZero x := by
  by_cases h : ∃ x, FloatOf v x ∧ (signed = true ∨ ¬ BelowZero x)
  · exact .inl h
  · refine .inr fun x hx => ?_
    by_contra hc
    apply h
    refine ⟨x, hx, ?_⟩
    cases signed
    · simp only [true_and] at hc; exact .inr hc
    · exact .inl rfl

/-! ### Decimal -/

omit [Runtime] [NumberRuntime] in
theorem isDouble_pow_den {q : ℚ} (h : IsDouble q) : ∃ j, q.den = 2 ^ j := by
  obtain ⟨m, e, _, _, _, rfl⟩ := h
  rcases le_or_gt 0 e with he | he
  · obtain ⟨n, rfl⟩ := Int.eq_ofNat_of_zero_le he
    refine ⟨0, ?_⟩
    have : ((m : ℚ) * 2 ^ ((n : ℕ) : ℤ)) = ((m * 2 ^ n : ℕ) : ℚ) := by rw [zpow_natCast]; push_cast; ring
    rw [this]; exact Rat.den_natCast _
  · obtain ⟨n, hn⟩ := Int.eq_ofNat_of_zero_le (by omega : 0 ≤ -e)
    have he' : e = -(n : ℤ) := by omega
    subst he'
    have : ((m : ℚ) * 2 ^ (-(n : ℤ))) = Rat.divInt m ((2 ^ n : ℕ) : ℤ) := by
      rw [Rat.divInt_eq_div, zpow_neg, zpow_natCast]; push_cast; rw [div_eq_mul_inv]
    rw [this]
    have hd : ((Rat.divInt m ((2 ^ n : ℕ) : ℤ)).den : ℤ) ∣ ((2 ^ n : ℕ) : ℤ) := Rat.den_dvd _ _
    have hd' := Int.natCast_dvd_natCast.mp hd
    obtain ⟨j, _, hj⟩ := (Nat.dvd_prime_pow Nat.prime_two).mp hd'
    exact ⟨j, hj⟩

omit [Runtime] [NumberRuntime] in
theorem decOfFloat_size {q : ℚ} (h : IsDouble q) : decSize (q.num.natAbs * 5 ^ q.den.log2) (-(q.den.log2 : ℤ)) = q := by
  obtain ⟨j, hj⟩ := isDouble_pow_den h
  have h0 := isDouble_nonneg h
  have hl : q.den.log2 = j := by rw [hj]; exact Nat.log2_two_pow
  have hn : ((q.num.natAbs : ℕ) : ℚ) = q.num := by
    rw [cast_natAbs, abs_of_nonneg]
    exact_mod_cast Rat.num_nonneg.mpr h0
  rw [hl]
  unfold decSize
  push_cast
  rw [hn, zpow_neg, zpow_natCast]
  have hq : (q.num : ℚ) = q * 2 ^ j := by
    have := Rat.mul_den_eq_num q
    rw [hj] at this
    push_cast at this
    exact this.symm
  rw [hq]
  have : (10 : ℚ) ^ j = 2 ^ j * 5 ^ j := by rw [← mul_pow]; norm_num
  rw [this]
  field_simp

theorem decOf_input {v : PyVal} {d : DecVal} (h : DecOf v d) : NumberInput v := by
  cases h with
  | float h => exact .float h
  | floatNan => exact .float trivial
  | floatInf => exact .float trivial
  | text => exact .text
  | int => exact .int
  | true => exact .bool
  | false => exact .bool
  | dec => exact .dec

theorem decNew_of {v : PyVal} (hv : NumberInput v) {d : DecVal} (h : decNew v = .ok d) : DecOf v d := by
  cases hv with
  | @text s => simp only [decNew] at h; exact .text ((decOfText_iff _ _).mp h)
  | @int i =>
    simp only [decNew, Except.ok.injEq] at h; subst h
    exact .int (by simp only [decSize, zpow_zero, mul_one]; exact cast_natAbs i)
  | @bool b =>
    simp only [decNew, Except.ok.injEq] at h; subst h
    cases b
    · exact .false
    · exact .true
  | @float x hx =>
    have : decNew (floatVal x) = .ok (decOfFloat x) := by simp [decNew, floatVal, NumberRuntime.floatAt_id]
    rw [this] at h
    simp only [Except.ok.injEq] at h; subst h
    cases x with
    | nan => exact .floatNan
    | inf neg => exact .floatInf
    | fin neg q => exact .float hx (decOfFloat_size hx)
  | @dec d =>
    have : decNew (decVal d) = .ok d := by simp [decNew, decVal, NumberRuntime.floatAt_dec, NumberRuntime.decAt_id]
    rw [this] at h
    simp only [Except.ok.injEq] at h; subst h
    exact .dec

theorem decNew_error {v : PyVal} (hv : NumberInput v) {e : PyErr} (h : decNew v = .error e) :
    numberCatches e = true ∧ ∃ s, v = .str s ∧ ∀ d, ¬ DecMeans (strip s) d := by
  cases hv with
  | @text s =>
    simp only [decNew] at h
    refine ⟨by rw [decOfText_error h]; rfl, s, rfl, fun d hd => ?_⟩
    rw [(decOfText_iff _ _).mpr hd] at h
    simp at h
  | int => simp [decNew] at h
  | bool => simp [decNew] at h
  | float => simp [decNew, floatVal, NumberRuntime.floatAt_id] at h
  | dec => simp [decNew, decVal, NumberRuntime.floatAt_dec, NumberRuntime.decAt_id] at h

omit [Runtime] [NumberRuntime] in
theorem decNegative_fin {d : DecVal} (hd : ∀ b, d ≠ .nan b) : ∃ b, decNegative d = .ok b ∧ (b = true ↔ DecBelowZero d) := by
  cases d with
  | nan b => exact absurd rfl (hd b)
  | inf neg => exact ⟨neg, rfl, Iff.rfl⟩
  | fin neg c e => exact ⟨_, rfl, by simp [DecBelowZero]⟩

/-- the steps of `set` once the Decimal is made -/
theorem dec_set {signed : Bool} {k : Nat} {st : ScalarState} {v : PyVal} {d : DecVal} (hv : v ≠ .none) (h : decNew v = .ok d)
    (hs : signed = true ∨ ((∀ b, d ≠ .nan b) ∧ ¬ DecBelowZero d)) :
    scalarSet (decimalType signed k) st v = match floatOfDec d with
      | .ok y => (⟨decVal d, floatText k y, some v⟩, .ok true)
      | .error e => (⟨decVal d, st.u, some v⟩, .error e) := by
  have ha : (decimalType signed k).adapt v = .ok (.obj (decId d)) := by
    simp only [decimalType]
    have hcase : (if signed = true then (Except.ok (decVal d) : Except PyErr PyVal) else match decNegative d with
          | .error e => .error e
          | .ok true => .error .adaptation
          | .ok false => .ok (decVal d)) = .ok (decVal d) := by
      rcases hs with rfl | ⟨h1, h2⟩
      · rfl
      · obtain ⟨b, hb, hb'⟩ := decNegative_fin h1
        split
        · rfl
        · rw [hb]
          cases b
          · rfl
          · exact absurd (hb'.mp rfl) h2
    cases v with
    | none => exact absurd rfl hv
    | _ => simp only [h]; exact hcase
  rw [scalarSet_obj ha]
  simp only [decimalType, NumberRuntime.decAt_id, decVal]
  cases floatOfDec d <;> rfl

theorem dec_set_nan {k : Nat} {st : ScalarState} {v : PyVal} {b : Bool} (hv : v ≠ .none) (h : decNew v = .ok (.nan b)) :
    scalarSet (decimalType false k) st v = ({ st with raw := some v }, .error .arithmetic) := by
  have ha : (decimalType false k).adapt v = .error .arithmetic := by
    simp only [decimalType]
    cases v with
    | none => exact absurd rfl hv
    | _ => simp only [h, decNegative]; rfl
  unfold scalarSet
  rw [ha]

theorem dec_set_below {k : Nat} {st : ScalarState} {v : PyVal} {d : DecVal} (hv : v ≠ .none) (h : decNew v = .ok d) (hd : DecBelowZero d) :
    scalarSet (decimalType false k) st v = (⟨.none, pyText v, some v⟩, .ok false) := by
  refine scalarSet_refused ?_ hv
  have hn : ∀ b, d ≠ .nan b := by rintro b rfl; exact hd
  obtain ⟨b, hb, hb'⟩ := decNegative_fin hn
  rw [hb'.mpr hd] at hb
  simp only [decimalType]
  cases v with
  | none => exact absurd rfl hv
  | _ => simp only [h, hb]; rfl

theorem dec_set_refused {signed : Bool} {k : Nat} {st : ScalarState} {s : PStr} (h : ∀ d, ¬ DecMeans (strip s) d) :
    scalarSet (decimalType signed k) st (.str s) = (⟨.none, s, some (.str s)⟩, .ok false) := by
  refine scalarSet_refused ?_ (by simp)
  cases hn : decNew (.str s) with
  | error e =>
    have he := (decNew_error .text hn).1
    simp only [decimalType, hn, he, if_true]
  | ok d =>
    have := decNew_of .text hn
    cases this with
    | text hh => exact absurd hh (h d)

omit [Runtime] [NumberRuntime] in
theorem decAsFloat_exists {d : DecVal} (h : d ≠ .nan true) : ∃ y, floatOfDec d = .ok y ∧ DecAsFloat d y := by
  cases hy : floatOfDec d with
  | ok y => exact ⟨y, rfl, (floatOfDec_iff d y).mp hy⟩
  | error e =>
    cases d with
    | nan b => cases b <;> simp_all [floatOfDec]
    | inf => simp [floatOfDec] at hy
    | fin => simp [floatOfDec] at hy

theorem decOf_text_new {s : PStr} {d : DecVal} (h : DecMeans (strip s) d) : decNew (.str s) = .ok d := by
  simp only [decNew]; exact (decOfText_iff _ _).mpr h

end

/-! ### how exact the texts are -/

set_option exponentiation.threshold 1100 in
/-- what is shown for numbers that are not too large is exact, if they have no more places -/
theorem nearest_round {k p n : ℕ} {q d : ℚ} (hp : p ≤ 53) (hkp : 10 ^ k < 2 ^ (53 - p)) (hq : q * 10 ^ k = n) (hlt : q < 2 ^ p)
    (hd : NearestDouble q d) : roundEven (d * 10 ^ k) = n := by
  have hk : (0 : ℚ) < 10 ^ k := by positivity
  have h0 : 0 ≤ q := by
    have : 0 ≤ q * 10 ^ k := by rw [hq]; positivity
    exact nonneg_of_mul_nonneg_left this hk
  have hd0 := isDouble_nonneg hd.1
  rcases h0.eq_or_lt with hz | hpos
  · subst hz
    have : d = 0 := by
      have := hd.2.1 0 isDouble_zero
      simp at this
      exact this
    subst this
    have hn : n = 0 := by simpa using hq.symm
    subst hn
    simpa using roundEven_natCast 0
  obtain ⟨e, r, he, hr, hr53, hcase, hlt', hdd⟩ := toDouble_parts hpos
  have hpe : (0 : ℚ) < 2 ^ e := by positivity
  have hne : toDouble q ≠ none := by
    intro hh
    have := (toDouble_none h0).mp hh
    unfold TooLarge at this
    have h53 : (2 : ℚ) ^ p ≤ 2 ^ 53 := pow_le_pow_right₀ (by norm_num) hp
    have : (2 : ℚ) ^ 1024 - 2 ^ 970 < 2 ^ 53 := lt_of_le_of_lt this (hlt.trans_le h53)
    have h3 : (2 : ℚ) ^ 53 < 2 ^ 1024 - 2 ^ 970 := by norm_num
    exact absurd this (not_lt.mpr h3.le)
  rw [hdd] at hne
  split at hne
  · exact absurd rfl hne
  rename_i hlarge
  rw [if_neg hlarge] at hdd
  have hdr : d = r * 2 ^ e := nearest_unique hd (toDouble_nearest h0 hdd)
  -- the distance
  have hrs := (roundEven_spec (q := q / 2 ^ e) (by positivity)).1
  rw [← hr] at hrs
  have hdist : |q - d| ≤ 2 ^ e / 2 := by
    have : q - d = (q / 2 ^ e - r) * 2 ^ e := by rw [hdr, sub_mul, div_mul_cancel₀ _ hpe.ne']
    rw [this, abs_mul, abs_of_pos hpe]
    calc |q / 2 ^ e - r| * 2 ^ e ≤ 1 / 2 * 2 ^ e := mul_le_mul_of_nonneg_right hrs hpe.le
      _ = _ := by ring
  have hep : (2 : ℚ) ^ e * 10 ^ k < 1 := by
    have hle : e ≤ (p : ℤ) - 53 := by
      rcases hcase with h | ⟨h, _⟩
      · omega
      · have h2 : (2 : ℚ) ^ (e + 52) < 2 ^ (p : ℤ) := by rw [zpow_natCast]; exact h.trans_lt hlt
        have := (zpow_lt_zpow_iff_right₀ (by norm_num : (1 : ℚ) < 2)).mp h2
        omega
    have h1 : (2 : ℚ) ^ e ≤ 2 ^ ((p : ℤ) - 53) := zpow_le_zpow_right₀ (by norm_num) hle
    have h2 : (10 : ℚ) ^ k < 2 ^ (53 - p) := by exact_mod_cast hkp
    have h3 : (2 : ℚ) ^ ((p : ℤ) - 53) * 2 ^ (53 - p) = 1 := by
      rw [← zpow_natCast (2 : ℚ) (53 - p), ← zpow_add₀ (by norm_num)]
      have : ((p : ℤ) - 53 + ((53 - p : ℕ) : ℤ)) = 0 := by omega
      rw [this, zpow_zero]
    calc (2 : ℚ) ^ e * 10 ^ k ≤ 2 ^ ((p : ℤ) - 53) * 10 ^ k := mul_le_mul_of_nonneg_right h1 hk.le
      _ < 2 ^ ((p : ℤ) - 53) * 2 ^ (53 - p) := mul_lt_mul_of_pos_left h2 (by positivity)
      _ = 1 := h3
  have hfin : |d * 10 ^ k - n| < 1 / 2 := by
    have : d * 10 ^ k - n = -((q - d) * 10 ^ k) := by rw [← hq]; ring
    rw [this, abs_neg, abs_mul, abs_of_pos hk]
    calc |q - d| * 10 ^ k ≤ 2 ^ e / 2 * 10 ^ k := mul_le_mul_of_nonneg_right hdist hk.le
      _ = (2 ^ e * 10 ^ k) / 2 := by ring
      _ < 1 / 2 := by linarith
  have hsp := roundEven_spec (q := d * 10 ^ k) (by positivity)
  exact round_unique hsp.1 hsp.2 hfin.le fun h => absurd h hfin.ne

set_option exponentiation.threshold 1100 in
/-- a number below 2^53 has a nearest float -/
theorem nearest_small {p : ℕ} {q : ℚ} (hp : p ≤ 53) (hlt : q < 2 ^ p) (h0 : 0 ≤ q) : ∃ d, NearestDouble q d ∧ ¬ TooLarge q := by
  rcases (floatOfSize_iff h0 false _).mp rfl with ⟨h1, _⟩ | ⟨h1, d, h2, _⟩
  · exfalso
    unfold TooLarge at h1
    have h53 : (2 : ℚ) ^ p ≤ 2 ^ 53 := pow_le_pow_right₀ (by norm_num) hp
    have h3 : (2 : ℚ) ^ 53 < 2 ^ 1024 - 2 ^ 970 := by norm_num
    exact absurd (hlt.trans_le h53) (not_lt.mpr (h3.le.trans h1))
  · exact ⟨d, h2, h1⟩

/-- reading a text back does not move a float by more than a unit of the last place -/
theorem read_close {k : ℕ} {x y : ℚ} (hx : IsDouble x) (hy : NearestDouble (decSize (roundEven (x * 10 ^ k)) (-k)) y) :
    |y - x| ≤ 1 / 10 ^ k := by
  have h0 := isDouble_nonneg hx
  have hk : (0 : ℚ) < 10 ^ k := by positivity
  have hs := (roundEven_spec (q := x * 10 ^ k) (by positivity)).1
  generalize roundEven (x * 10 ^ k) = N at hs hy
  have hsz : decSize N (-k) = N / 10 ^ k := by simp [decSize, div_eq_mul_inv]
  rw [hsz] at hy
  have h1 : |x - N / 10 ^ k| ≤ 1 / 2 / 10 ^ k := by
    have : x - N / 10 ^ k = (x * 10 ^ k - N) / 10 ^ k := by field_simp
    rw [this, abs_div, abs_of_pos hk]
    exact div_le_div_of_nonneg_right hs hk.le
  have h2 := (hy.2.1 x hx).trans h1
  calc |y - x| = |(y - N / 10 ^ k) - (x - N / 10 ^ k)| := by ring_nf
    _ ≤ |y - N / 10 ^ k| + |x - N / 10 ^ k| := abs_sub _ _
    _ ≤ 1 / 2 / 10 ^ k + 1 / 2 / 10 ^ k := add_le_add h2 h1
    _ = 1 / 10 ^ k := by ring

end Flatland
