import Verif.Proofs.Floats5
import Verif.Props.Cycle
import Mathlib.Data.Nat.Pairing
/-
C85: Float and Decimal fields.
-/
namespace Flatland
open Spec

section
variable [Runtime] [NumberRuntime]

/-! ## Float -/

/-- A Float set from a text, an int, a bool, a float or a Decimal that is a number (and not below zero, if the field is unsigned)
takes the nearest float, and shows it rounded to the places of its format. -/
theorem C85_float_set {signed : Bool} {places : ℕ} {st : ScalarState} {v : PyVal} {x : FloatVal} (h : FloatOf v x)
    (hs : signed = true ∨ ¬ BelowZero x) :
    ∃ u, ShowsFloat places x u ∧ scalarSet (floatType signed places) st v = (⟨floatVal x, u, some v⟩, .ok true) :=
  ⟨_, showsFloat_floatText places (floatOf_isFloat h), float_set_ok h hs⟩

/-- Any other of these values is refused: the value is None, and the text shown is the one given. -/
theorem C85_float_refused {signed : Bool} {places : ℕ} {st : ScalarState} {v : PyVal} (hv : NumberInput v)
    (h : ∀ x, FloatOf v x → signed = false ∧ BelowZero x) :
    scalarSet (floatType signed places) st v = (⟨.none, pyText v, some v⟩, .ok false) :=
  float_set_refused hv h

/-- A value is at most one float, and a float has one text. -/
theorem C85_float_unique {v : PyVal} {x y : FloatVal} (hx : FloatOf v x) (hy : FloatOf v y) : x = y := by
  have h1 := (floatNew_iff (floatOf_input hx) x).mpr hx
  have h2 := (floatNew_iff (floatOf_input hx) y).mpr hy
  rw [h1] at h2
  simpa using h2

omit [Runtime] [NumberRuntime] in
/-- A float has one text. -/
theorem C85_text_unique {places : ℕ} {x : FloatVal} {s t : PStr} (hs : ShowsFloat places x s) (ht : ShowsFloat places x t) : s = t :=
  showsFloat_unique hs ht

/-- `set(None)` empties the field. -/
theorem C85_none (signed : Bool) (places : ℕ) (st : ScalarState) :
    scalarSet (floatType signed places) st .none = (⟨.none, [], some .none⟩, .ok true) ∧
    scalarSet (decimalType signed places) st .none = (⟨.none, [], some .none⟩, .ok true) := ⟨rfl, rfl⟩

/-- Whatever text a Float is set from, setting it from its own text gives the same answer and the same text, and from then on
nothing changes at all. -/
theorem C85_float_settles (signed : Bool) (places : ℕ) (st : ScalarState) (s : PStr) :
    ∃ b st1 st2, scalarSet (floatType signed places) st (.str s) = (st1, .ok b) ∧
      scalarSet (floatType signed places) st1 (.str st1.u) = (st2, .ok b) ∧ st2.u = st1.u ∧
      scalarSet (floatType signed places) st2 (.str st2.u) = (st2, .ok b) := by
  obtain ⟨b, st1, st2, h1, h2, h3, h4⟩ := float_text_twice signed places st s
  exact ⟨b, st1, st2, h1, h2 st1, h3, h4 st2⟩

/-- The same if it was set from a number and took it. -/
theorem C85_float_settles_number {signed : Bool} {places : ℕ} {st : ScalarState} {v : PyVal} {x : FloatVal} (h : FloatOf v x)
    (hs : signed = true ∨ ¬ BelowZero x) :
    ∃ st1 st2, scalarSet (floatType signed places) st v = (st1, .ok true) ∧
      scalarSet (floatType signed places) st1 (.str st1.u) = (st2, .ok true) ∧ st2.u = st1.u ∧
      scalarSet (floatType signed places) st2 (.str st2.u) = (st2, .ok true) := by
  have hheld : FloatHeld signed places ⟨floatVal x, floatText places x, some v⟩ := ⟨x, floatOf_isFloat h, hs, rfl⟩
  obtain ⟨y, _, _, _, h4⟩ := floatHeld_text hheld
  exact ⟨_, _, float_set_ok h hs, h4 _, rfl, h4 _⟩

/-- The number that is read back from a Float's text differs from the one it held by at most one unit of the last place shown. -/
theorem C85_float_close {signed : Bool} {places : ℕ} {st : ScalarState} {v : PyVal} {neg : Bool} {x : ℚ}
    (h : FloatOf v (.fin neg x)) (hs : signed = true ∨ ¬ BelowZero (.fin neg x)) :
    ∃ st1 st2 y, scalarSet (floatType signed places) st v = (st1, .ok true) ∧ st1.value = floatVal (.fin neg x) ∧
      scalarSet (floatType signed places) st1 (.str st1.u) = (st2, .ok true) ∧ st2.value = floatVal (.fin neg y) ∧
      |y - x| ≤ 1 / 10 ^ places := by
  have hx : IsDouble x := floatOf_isFloat h
  obtain ⟨y, h1, h2, h3⟩ := fixed_settles places hx
  have hsz : decSize (roundEven (x * 10 ^ places)) (-places) = roundEven (x * 10 ^ places) * ((10 : ℚ) ^ places)⁻¹ := by simp [decSize]
  have hnot : ¬ TooLarge (decSize (roundEven (x * 10 ^ places)) (-places)) := by
    intro hh
    rw [← toDouble_none (decSize_nonneg _ _), hsz, h1] at hh
    simp at hh
  have hy : NearestDouble (decSize (roundEven (x * 10 ^ places)) (-places)) y := toDouble_nearest (decSize_nonneg _ _) (by rw [hsz]; exact h1)
  have hof : FloatOf (.str (floatText places (.fin neg x))) (.fin neg y) := by
    refine .text ?_
    rw [strip_floatText]
    exact .number (numeral_fixed neg places x) hnot hy
  have hs' : signed = true ∨ ¬ BelowZero (.fin neg y) := by
    refine hs.imp id fun hb hb' => hb ⟨hb'.1, ?_⟩
    rintro rfl
    apply hb'.2
    have h0 : roundEven (0 * 10 ^ places) = 0 := by simpa using roundEven_natCast 0
    rw [h0] at h1
    simp [toDouble] at h1
    exact h1.symm
  exact ⟨_, _, y, float_set_ok h hs, rfl, float_set_ok hof hs', rfl, read_close hx hy⟩

/-- A number below 2^p with no more places than are shown, where 10^places < 2^(53-p), is shown as it is and read back as the very same float. -/
theorem C85_float_kept {signed : Bool} {places p n : ℕ} {st : ScalarState} {s : PStr} {neg : Bool} {c : ℕ} {e : ℤ} (hp : p ≤ 53)
    (hkp : 10 ^ places < 2 ^ (53 - p)) (hnum : Numeral (strip s) neg c e) (hq : decSize c e = n / 10 ^ places) (hlt : decSize c e < 2 ^ p)
    (hs : signed = true ∨ neg = false) :
    ∃ d u t, NearestDouble (decSize c e) d ∧ ShownAs places n t ∧ u = (if neg then '-' :: t else t) ∧
      scalarSet (floatType signed places) st (.str s) = (⟨floatVal (.fin neg d), u, some (.str s)⟩, .ok true) ∧
      ∀ st', scalarSet (floatType signed places) st' (.str u) = (⟨floatVal (.fin neg d), u, some (.str u)⟩, .ok true) := by
  have h0 := decSize_nonneg c e
  have hk : (0 : ℚ) < 10 ^ places := by positivity
  have hqn : decSize c e * 10 ^ places = n := by rw [hq]; field_simp
  obtain ⟨d, hd, hnot⟩ := nearest_small hp hlt h0
  have hr : roundEven (d * 10 ^ places) = n := nearest_round hp hkp hqn hlt hd
  have hs' : signed = true ∨ ¬ BelowZero (.fin neg d) := hs.imp id fun h => by simp [BelowZero, h]
  have hof : FloatOf (.str s) (.fin neg d) := .text (.number hnum hnot hd)
  have hsh : ShownAs places n (fixedText places d) := hr ▸ shownAs_fixed places d
  have hu : floatText places (.fin neg d) = (if neg then '-' :: fixedText places d else fixedText places d) := by cases neg <;> rfl
  refine ⟨d, _, _, hd, hsh, rfl, by rw [float_set_ok hof hs', hu], fun st' => ?_⟩
  have hsz : decSize n (-places) = decSize c e := by rw [hq]; simp [decSize, div_eq_mul_inv]
  have hof2 : FloatOf (.str (floatText places (.fin neg d))) (.fin neg d) := by
    refine .text ?_
    rw [strip_floatText]
    refine .number (c := n) (e := -places) (hr ▸ numeral_fixed neg places d) ?_ ?_ <;> rw [hsz] <;> assumption
  rw [← hu, float_set_ok hof2 hs']

/-- An unsigned Float never holds a number below zero, whatever it is set to. -/
theorem C85_float_unsigned {places : ℕ} {st st' : ScalarState} {v : PyVal} {b : Bool}
    (h : scalarSet (floatType false places) st v = (st', .ok b)) : st'.value = .none ∨ ∃ x, st'.value = floatVal x ∧ ¬ BelowZero x := by
  unfold scalarSet at h
  cases ha : (floatType false places).adapt v with
  | error e => rw [ha] at h; cases e <;> simp at h <;> exact .inl (by rw [← h.1])
  | ok w =>
    have hw : w = .none ∨ ∃ x, w = floatVal x ∧ ¬ BelowZero x := by
      cases v with
      | none => simp only [floatType, Except.ok.injEq] at ha; exact .inl ha.symm
      | _ =>
        right
        simp only [floatType] at ha
        split at ha
        · simp at ha
        · rename_i x hx
          split at ha
          · simp at ha
          · rename_i hn
            simp only [Except.ok.injEq] at ha
            refine ⟨x, ha.symm, ?_⟩
            rw [← belowZero_iff]
            simpa using hn
    rw [ha] at h
    cases w with
    | none => simp at h; exact .inl (by rw [← h.1])
    | _ =>
      simp only at h
      split at h
      · simp only [Prod.mk.injEq] at h
        rw [← h.1]; exact hw
      · simp at h

/-! ## Decimal -/

/-- A Decimal set from a text, an int, a bool, a float or a Decimal: if it is a number, the field does what `DecSets` says with exactly the number given;
if not, it refuses it, shows what was given and has the value None. -/
theorem C85_decimal_set {signed : Bool} {places : ℕ} {st : ScalarState} {v : PyVal} (hv : NumberInput v) :
    (∃ d, DecOf v d ∧ DecSets signed places st v d (scalarSet (decimalType signed places) st v)) ∨
    ((∀ d, ¬ DecOf v d) ∧ scalarSet (decimalType signed places) st v = (⟨.none, pyText v, some v⟩, .ok false)) := by
  have hne := input_ne_none hv
  cases hn : decNew v with
  | error e =>
    obtain ⟨_, s, rfl, hs⟩ := decNew_error hv hn
    exact .inr ⟨fun d hd => by cases hd with | text h => exact hs d h, dec_set_refused hs⟩
  | ok d =>
    refine .inl ⟨d, decNew_of hv hn, ?_⟩
    by_cases hs : signed = true ∨ ((∀ b, d ≠ .nan b) ∧ ¬ DecBelowZero d)
    · rw [dec_set hne hn hs]
      by_cases hsn : d = .nan true
      · subst hsn
        have hsg : signed = true := hs.resolve_right fun h => h.1 true rfl
        exact .notShowable hsg
      · obtain ⟨y, hy, hy'⟩ := decAsFloat_exists hsn
        rw [hy]
        exact .shown hs hy' (showsFloat_floatText places (decAsFloat_isFloat hy'))
    · have hsg : signed = false := by
        cases signed
        · rfl
        · exact absurd (.inl rfl) hs
      subst hsg
      by_cases hnan : ∃ b, d = .nan b
      · obtain ⟨b, rfl⟩ := hnan
        rw [dec_set_nan hne hn]
        exact .notComparable rfl
      · have hb : DecBelowZero d := by
          by_contra hc
          exact hs (.inr ⟨fun b hb => hnan ⟨b, hb⟩, hc⟩)
        rw [dec_set_below hne hn hb]
        exact .negative rfl hb

/-- The number is determined by what is given. -/
theorem C85_decimal_unique {v : PyVal} {d d' : DecVal} (h : DecOf v d) (h' : DecOf v d') : SameNumber d d' := by
  have hrefl : ∀ d : DecVal, SameNumber d d := by
    intro d
    cases d with
    | nan => exact .nan
    | inf => exact .inf
    | fin => exact .fin rfl
  generalize hv : v = w at h'
  have hfl : ∀ {x y : FloatVal}, floatVal x = floatVal y → x = y := by
    intro x y hxy
    simp only [floatVal, PyVal.obj.injEq] at hxy
    have := congrArg floatAt hxy
    simpa [NumberRuntime.floatAt_id] using this
  have hfd : ∀ {x : FloatVal} {d : DecVal}, floatVal x = decVal d → False := by
    intro x d hxy
    simp only [floatVal, decVal, PyVal.obj.injEq] at hxy
    have := congrArg floatAt hxy
    simp [NumberRuntime.floatAt_id, NumberRuntime.floatAt_dec] at this
  cases h with
  | @text s d h1 =>
    cases h' with
    | text h2 =>
      simp only [PyVal.str.injEq] at hv
      subst hv
      have a := (decOfText_iff _ _).mpr h1
      have b := (decOfText_iff _ _).mpr h2
      rw [a] at b
      simp only [Except.ok.injEq] at b
      rw [b]; exact hrefl _
    | _ => simp [floatVal, decVal] at hv
  | int h1 =>
    cases h' with
    | int h2 =>
      simp only [PyVal.int.injEq] at hv
      subst hv
      exact .fin (h1.trans h2.symm)
    | _ => simp [floatVal, decVal] at hv
  | true =>
    cases h' with
    | true => exact hrefl _
    | _ => simp [floatVal, decVal] at hv
  | false =>
    cases h' with
    | false => exact hrefl _
    | _ => simp [floatVal, decVal] at hv
  | float h0 h1 =>
    cases h' with
    | float h2 h3 =>
      have := hfl hv
      simp only [FloatVal.fin.injEq] at this
      obtain ⟨rfl, rfl⟩ := this
      exact .fin (h1.trans h3.symm)
    | floatNan => exact absurd (hfl hv) (by simp)
    | floatInf => exact absurd (hfl hv) (by simp)
    | dec => exact (hfd hv).elim
    | _ => simp [floatVal] at hv
  | floatNan =>
    cases h' with
    | float h2 h3 => exact absurd (hfl hv) (by simp)
    | floatNan => exact .nan
    | floatInf => exact absurd (hfl hv) (by simp)
    | dec => exact (hfd hv).elim
    | _ => simp [floatVal] at hv
  | floatInf =>
    cases h' with
    | float h2 h3 => exact absurd (hfl hv) (by simp)
    | floatNan => exact absurd (hfl hv) (by simp)
    | floatInf =>
      have := hfl hv
      simp only [FloatVal.inf.injEq] at this
      subst this
      exact .inf
    | dec => exact (hfd hv).elim
    | _ => simp [floatVal] at hv
  | dec =>
    cases h' with
    | float => exact (hfd hv.symm).elim
    | floatNan => exact (hfd hv.symm).elim
    | floatInf => exact (hfd hv.symm).elim
    | dec =>
      simp only [decVal, PyVal.obj.injEq] at hv
      have := congrArg decAt hv
      simp only [NumberRuntime.decAt_id, Option.some.injEq] at this
      rw [this]; exact hrefl _
    | _ => simp [decVal] at hv

/-- If a Decimal field takes or refuses a text without an exception, setting it from its own text gives the same answer and the same text, and
from then on nothing changes at all. -/
theorem C85_decimal_settles {signed : Bool} {places : ℕ} {st st1 : ScalarState} {s : PStr} {b : Bool}
    (h : scalarSet (decimalType signed places) st (.str s) = (st1, .ok b)) :
    ∃ st2, scalarSet (decimalType signed places) st1 (.str st1.u) = (st2, .ok b) ∧ st2.u = st1.u ∧
      scalarSet (decimalType signed places) st2 (.str st2.u) = (st2, .ok b) := by
  obtain ⟨st2, h1, h2, h3⟩ := dec_text_twice h
  exact ⟨st2, h1 st1, h2, h3 st2⟩

/-- A Decimal below 2^p with no more places than are shown, where 10^places < 2^(53-p), is shown exactly, and read back as the same number. -/
theorem C85_decimal_kept {signed : Bool} {places p n : ℕ} {st : ScalarState} {s : PStr} {neg : Bool} {c : ℕ} {e : ℤ} (hp : p ≤ 53)
    (hkp : 10 ^ places < 2 ^ (53 - p)) (hnum : Numeral (strip s) neg c e) (hq : decSize c e = n / 10 ^ places) (hlt : decSize c e < 2 ^ p)
    (hs : signed = true ∨ neg = false) :
    ∃ u t c' e', ShownAs places n t ∧ u = (if neg then '-' :: t else t) ∧
      scalarSet (decimalType signed places) st (.str s) = (⟨decVal (.fin neg c e), u, some (.str s)⟩, .ok true) ∧
      (∀ st', scalarSet (decimalType signed places) st' (.str u) = (⟨decVal (.fin neg c' e'), u, some (.str u)⟩, .ok true)) ∧
      decSize c' e' = decSize c e := by
  have h0 := decSize_nonneg c e
  have hqn : decSize c e * 10 ^ places = n := by rw [hq]; field_simp
  obtain ⟨d, hd, hnot⟩ := nearest_small hp hlt h0
  have hr : roundEven (d * 10 ^ places) = n := nearest_round hp hkp hqn hlt hd
  have hsz : decSize n (-places) = decSize c e := by rw [hq]; simp [decSize, div_eq_mul_inv]
  have hs1 : ∀ c e, signed = true ∨ ((∀ b, DecVal.fin neg c e ≠ .nan b) ∧ ¬ DecBelowZero (.fin neg c e)) :=
    fun c e => hs.imp id fun h => ⟨by simp, by simp [DecBelowZero, h]⟩
  have hf : ∀ c' e', decSize c' e' = decSize c e → floatOfDec (.fin neg c' e') = .ok (.fin neg d) := by
    intro c' e' hh
    exact (floatOfDec_iff _ _).mpr (.number (by rw [hh]; exact hnot) (by rw [hh]; exact hd))
  have hu : floatText places (.fin neg d) = (if neg then '-' :: fixedText places d else fixedText places d) := by cases neg <;> rfl
  refine ⟨_, _, n, -places, hr ▸ shownAs_fixed places d, rfl, ?_, fun st' => ?_, hsz⟩
  · rw [dec_set (by simp) (decOf_text_new (.number hnum)) (hs1 c e), hf c e rfl, ← hu]
  · have hn : decNew (.str (floatText places (.fin neg d))) = .ok (.fin neg n (-places)) := by
      refine decOf_text_new ?_
      rw [strip_floatText]
      exact .number (hr ▸ numeral_fixed neg places d)
    rw [← hu, dec_set (by simp) hn (hs1 n _), hf n _ hsz]

/-- In particular with `u'%f'`: every amount with up to six decimal places below 8589934592. -/
theorem C85_decimal_kept_six {signed : Bool} {n : ℕ} {st : ScalarState} {s : PStr} {neg : Bool} {c : ℕ} {e : ℤ}
    (hnum : Numeral (strip s) neg c e) (hq : decSize c e = n / 10 ^ 6) (hlt : decSize c e < 8589934592) (hs : signed = true ∨ neg = false) :
    ∃ u t c' e', ShownAs 6 n t ∧ u = (if neg then '-' :: t else t) ∧
      scalarSet (decimalType signed 6) st (.str s) = (⟨decVal (.fin neg c e), u, some (.str s)⟩, .ok true) ∧
      (∀ st', scalarSet (decimalType signed 6) st' (.str u) = (⟨decVal (.fin neg c' e'), u, some (.str u)⟩, .ok true)) ∧
      decSize c' e' = decSize c e :=
  C85_decimal_kept (p := 33) (by norm_num) (by norm_num) hnum hq (by norm_num; exact hlt) hs

/-- Not so from there on: a Decimal field set from `8589934592.000001` shows, and reads back, `8589934592.000002`. -/
theorem C85_decimal_large_negated {signed : Bool} {st : ScalarState} {s : PStr} (hnum : Numeral (strip s) false 8589934592000001 (-6)) :
    ∃ u, ShownAs 6 8589934592000002 u ∧ DecMeans (strip u) (.fin false 8589934592000002 (-6)) ∧
      scalarSet (decimalType signed 6) st (.str s) = (⟨decVal (.fin false 8589934592000001 (-6)), u, some (.str s)⟩, .ok true) := by
  have hd : toDouble (8589934592000001 / 1000000) = some (4503599627370497 / 524288) := by decide +kernel
  have hsz : decSize 8589934592000001 (-6) = 8589934592000001 / 1000000 := by norm_num [decSize]
  have hr : roundEven (4503599627370497 / 524288 * 10 ^ 6) = 8589934592000002 := by
    have : (4503599627370497 / 524288 * 10 ^ 6 : ℚ) = 4503599627370497 / 524288 * 1000000 := by norm_num
    rw [this]
    decide +kernel
  have hf : floatOfDec (.fin false 8589934592000001 (-6)) = .ok (.fin false (4503599627370497 / 524288)) := by
    simp only [floatOfDec, decSize_eq, floatOfSize]
    rw [hsz, hd]
  have hm : DecMeans (strip (floatText 6 (.fin false (4503599627370497 / 524288)))) (.fin false 8589934592000002 (-6)) := by
    rw [strip_floatText]
    exact .number (hr ▸ numeral_fixed false 6 (4503599627370497 / 524288))
  refine ⟨_, hr ▸ shownAs_fixed 6 (4503599627370497 / 524288), hm, ?_⟩
  rw [dec_set (by simp) (decOf_text_new (.number hnum)) (.inr ⟨by simp, by simp [DecBelowZero]⟩), hf]

/-- A number with more places than are shown is never read back. -/
theorem C85_decimal_lost {signed : Bool} {places : ℕ} {st : ScalarState} {s : PStr} {neg : Bool} {c : ℕ} {e : ℤ}
    (hnum : Numeral (strip s) neg c e) (hq : ∀ n : ℕ, decSize c e ≠ n / 10 ^ places) (hs : signed = true ∨ neg = false) :
    ∃ st1 st2 d, scalarSet (decimalType signed places) st (.str s) = (st1, .ok true) ∧ st1.value = decVal (.fin neg c e) ∧
      scalarSet (decimalType signed places) st1 (.str st1.u) = (st2, .ok true) ∧ st2.value = decVal d ∧ ¬ SameNumber (.fin neg c e) d := by
  have hs1 : ∀ c e, signed = true ∨ ((∀ b, DecVal.fin neg c e ≠ .nan b) ∧ ¬ DecBelowZero (.fin neg c e)) :=
    fun c e => hs.imp id fun h => ⟨by simp, by simp [DecBelowZero, h]⟩
  obtain ⟨z, hz, hz'⟩ := decAsFloat_exists (d := .fin neg c e) (by simp)
  have h1 : ∀ st, scalarSet (decimalType signed places) st (.str s) = (⟨decVal (.fin neg c e), floatText places z, some (.str s)⟩, .ok true) := fun st => by
    rw [dec_set (by simp) (decOf_text_new (.number hnum)) (hs1 c e), hz]
  obtain ⟨d, y, g1, g2, g3, g4, g5, g6, g7, g8⟩ := dec_again places (decAsFloat_isFloat hz')
  have hn : decNew (.str (floatText places z)) = .ok d := decOf_text_new (by rw [strip_floatText]; exact g1)
  have hsd : signed = true ∨ ((∀ b, d ≠ .nan b) ∧ ¬ DecBelowZero d) := by
    refine hs.imp id fun h => ?_
    subst h
    cases hz' with
    | number _ _ => rw [g8 _ _ rfl]; exact ⟨by simp, by simp [DecBelowZero]⟩
    | tooLarge _ => rw [g7 _ rfl]; exact ⟨by simp, by simp [DecBelowZero]⟩
  refine ⟨_, ⟨decVal d, floatText places y, some (.str (floatText places z))⟩, d, h1 st, rfl, ?_, rfl, ?_⟩
  · rw [dec_set (by simp) hn hsd, (floatOfDec_iff d y).mpr g2]
  · intro hsame
    cases hz' with
    | @number _ _ _ x _ _ =>
      rw [g8 _ _ rfl] at hsame
      cases hsame with
      | fin hh =>
        refine hq (roundEven (x * 10 ^ places)) (hh.trans ?_)
        simp [decSize, div_eq_mul_inv]
    | tooLarge _ => rw [g7 _ rfl] at hsame; cases hsame

/-- An unsigned Decimal never holds a number below zero, nor a NaN, whatever it is set to. -/
theorem C85_decimal_unsigned {places : ℕ} {st st' : ScalarState} {v : PyVal} {b : Bool}
    (h : scalarSet (decimalType false places) st v = (st', .ok b)) :
    st'.value = .none ∨ ∃ d, st'.value = decVal d ∧ ¬ DecBelowZero d ∧ ∀ b, d ≠ .nan b := by
  unfold scalarSet at h
  cases ha : (decimalType false places).adapt v with
  | error e => rw [ha] at h; cases e <;> simp at h <;> exact .inl (by rw [← h.1])
  | ok w =>
    have hw : w = .none ∨ ∃ d, w = decVal d ∧ ¬ DecBelowZero d ∧ ∀ b, d ≠ .nan b := by
      cases v with
      | none => simp only [decimalType, Except.ok.injEq] at ha; exact .inl ha.symm
      | _ =>
        right
        simp only [decimalType] at ha
        split at ha
        · simp at ha
        · rename_i x hx
          simp only [Bool.false_eq_true, if_false] at ha
          split at ha
          · simp at ha
          · simp at ha
          · rename_i hn
            simp only [Except.ok.injEq] at ha
            refine ⟨x, ha.symm, ?_⟩
            cases x with
            | nan b => simp [decNegative] at hn
            | inf neg => simp only [decNegative, Except.ok.injEq] at hn; subst hn; exact ⟨by simp [DecBelowZero], by simp⟩
            | fin neg c e =>
              simp only [decNegative, Except.ok.injEq, Bool.and_eq_false_iff, decide_eq_false_iff_not] at hn
              refine ⟨?_, by simp⟩
              rintro ⟨rfl, hc⟩
              simp at hn
              exact hc hn
    rw [ha] at h
    cases w with
    | none => simp at h; exact .inl (by rw [← h.1])
    | _ =>
      simp only at h
      split at h
      · simp only [Prod.mk.injEq] at h
        rw [← h.1]; exact hw
      · simp at h

/-! ## Forms -/

/-- If a form of the scalar classes of the library, Float and Decimal among them, comes of a submission, then sending its page back never
raises an exception, and after three times no longer changes anything. -/
theorem C85_submission {sep : PStr} (hs : GoodSep sep) (s : Schema) (hk : Keyed s) (hw : WellNamed sep s)
    (ht : AllTypes (fun t => IsBuiltin t ∨ IsFloatType t ∨ IsDecimalType t) s) (ps : List (PStr × PStr)) (e : Elem)
    (h : fromFlat sep s ps = .ok e) : ∃ e', ∀ n, sentBack sep s (n + 3) e = .ok e' := by
  have hc : Conforms s e := fromFlat_conforms h
  have hft := fromText_setFlat s false _ e h
  have hP := each_and (each_of_types (Q := fun _ t _ => IsBuiltin t ∨ IsFloatType t ∨ IsDecimalType t) (fun _ _ _ h => h) s false e ht) hft
  have hq := each_mono (Q := Calms) (fun p t st h => calm_of h.1 h.2) s false e hP
  have h1 := C83_brought_back hs s e hk hw hc (each_mono (fun p t st h => takes_of_calm h) s false e hq)
  have hst : EachScalar Steady false s (broughtBack false s e) := each_back (fun p t st h => steady_of_calm h) s false e hw hc hq
  obtain ⟨e', h⟩ := C83_settles hs s _ hk hw (broughtBack_conforms false s e hw hc) hst (within_back s false e hw hc)
  refine ⟨e', fun n => ?_⟩
  rw [sentBack, h1]
  exact h n

end

/-! ## Non-vacuity -/

section examples
attribute [local instance] Runtime.ascii

/-- a number for a float -/
def floatCode : FloatVal → ℕ
  | .nan => 0
  | .inf neg => if neg then 1 else 2
  | .fin neg q => 3 + Nat.pair (if neg then 1 else 0) (Nat.pair (Nat.pair (if q.num < 0 then 1 else 0) q.num.natAbs) q.den)

/-- the float with a number -/
def floatUncode (n : ℕ) : FloatVal :=
  if n = 0 then .nan else if n = 1 then .inf true else if n = 2 then .inf false else
    let a := (n - 3).unpair
    let b := a.2.unpair
    let c := b.1.unpair
    .fin (a.1 == 1) (((if c.1 = 1 then -(c.2 : ℤ) else c.2 : ℤ) : ℚ) / (b.2 : ℚ))

theorem floatUncode_code (x : FloatVal) : floatUncode (floatCode x) = x := by
  cases x with
  | nan => rfl
  | inf neg => cases neg <;> rfl
  | fin neg q =>
    have h1 : ∀ a, ¬ (3 + a = 0) ∧ ¬ (3 + a = 1) ∧ ¬ (3 + a = 2) := fun a => by omega
    have hn : (((if q.num < 0 then 1 else 0 : ℕ) = 1 → (if (if q.num < 0 then 1 else 0 : ℕ) = 1 then -(q.num.natAbs : ℤ) else q.num.natAbs : ℤ) = q.num)) ∧
        (if (if q.num < 0 then 1 else 0 : ℕ) = 1 then -(q.num.natAbs : ℤ) else q.num.natAbs : ℤ) = q.num := by
      have : (if (if q.num < 0 then 1 else 0 : ℕ) = 1 then -(q.num.natAbs : ℤ) else q.num.natAbs : ℤ) = q.num := by
        by_cases h : q.num < 0
        · rw [if_pos h, if_pos rfl]; omega
        · rw [if_neg h, if_neg (by decide)]; omega
      exact ⟨fun _ => this, this⟩
    simp only [floatCode, floatUncode, (h1 _).1, (h1 _).2.1, (h1 _).2.2, if_false, Nat.add_sub_cancel_left, Nat.unpair_pair, hn.2, Rat.num_div_den]
    cases neg <;> rfl

/-- a number for a Decimal -/
def decCode : DecVal → ℕ
  | .nan b => if b then 0 else 1
  | .inf neg => if neg then 2 else 3
  | .fin neg c e => 4 + Nat.pair (if neg then 1 else 0) (Nat.pair c (Nat.pair (if e < 0 then 1 else 0) e.natAbs))

/-- the Decimal with a number -/
def decUncode (n : ℕ) : DecVal :=
  if n = 0 then .nan true else if n = 1 then .nan false else if n = 2 then .inf true else if n = 3 then .inf false else
    let a := (n - 4).unpair
    let b := a.2.unpair
    let c := b.2.unpair
    .fin (a.1 == 1) b.1 (if c.1 = 1 then -(c.2 : ℤ) else c.2)

theorem decUncode_code (x : DecVal) : decUncode (decCode x) = x := by
  cases x with
  | nan b => cases b <;> rfl
  | inf neg => cases neg <;> rfl
  | fin neg c e =>
    have h1 : ∀ a, ¬ (4 + a = 0) ∧ ¬ (4 + a = 1) ∧ ¬ (4 + a = 2) ∧ ¬ (4 + a = 3) := fun a => by omega
    have hn : (if (if e < 0 then 1 else 0 : ℕ) = 1 then -(e.natAbs : ℤ) else e.natAbs : ℤ) = e := by
      by_cases h : e < 0
      · rw [if_pos h, if_pos rfl]; omega
      · rw [if_neg h, if_neg (by decide)]; omega
    simp only [decCode, decUncode, (h1 _).1, (h1 _).2.1, (h1 _).2.2.1, (h1 _).2.2.2, if_false, Nat.add_sub_cancel_left, Nat.unpair_pair, hn]
    cases neg <;> rfl

/-- numbers as objects -/
@[reducible] def exampleNumbers : @NumberRuntime Runtime.ascii where
  floatId x := 2 * floatCode x
  floatAt n := if n % 2 = 0 then some (floatUncode (n / 2)) else none
  decId x := 2 * decCode x + 1
  decAt n := if n % 2 = 1 then some (decUncode (n / 2)) else none
  floatOther _ := .error .type
  decOther _ := .error .type
  floatAt_id x := by simp [floatUncode_code]
  decAt_id x := by
    have h1 : (2 * decCode x + 1) % 2 = 1 := by omega
    have h2 : (2 * decCode x + 1) / 2 = decCode x := by omega
    simp [h1, h2, decUncode_code]
  floatAt_dec x := by
    have h1 : (2 * decCode x + 1) % 2 = 1 := by omega
    simp [h1]
  decAt_float x := by simp
  dot_not_digit := by decide
  letter_not_digit := by
    intro c hc
    have h : 65 ≤ c.toNat := by
      rcases hc with ⟨h, _⟩ | ⟨h, _⟩
      · exact le_trans (by decide) (show ('a' : Char).toNat ≤ c.toNat from h)
      · exact h
    show (if 48 ≤ c.toNat ∧ c.toNat ≤ 57 then some (c.toNat - 48) else none) = none
    rw [if_neg (by omega)]
  letter_not_space := by
    intro c hc
    have h : 65 ≤ c.toNat := by
      rcases hc with ⟨h, _⟩ | ⟨h, _⟩
      · exact le_trans (by decide) (show ('a' : Char).toNat ≤ c.toNat from h)
      · exact h
    have hc : c ≠ ' ' := by rintro rfl; exact absurd h (by decide)
    show (decide (c = ' ') || (decide (9 ≤ c.toNat) && decide (c.toNat ≤ 13)) || (decide (28 ≤ c.toNat) && decide (c.toNat ≤ 31))) = false
    have h1 : ¬ c.toNat ≤ 13 := by omega
    have h2 : ¬ c.toNat ≤ 31 := by omega
    simp [hc, h1, h2]

attribute [local instance] exampleNumbers

/-- `' -1.5e1 '` is -15 -/
theorem example_float : FloatOf (.str " -1.5e1 ".toList) (.fin true 15) := by
  refine (floatNew_iff .text _).mp ?_
  have h1 : numText false (strip " -1.5e1 ".toList) = some (.num true 15 0) := by decide +kernel
  have h2 : toDouble (15 * pow10 0) = some 15 := by decide +kernel
  simp only [floatNew, floatOfText, h1, floatOfSize]
  rw [show ((15 : ℕ) : ℚ) * pow10 0 = 15 * pow10 0 from by norm_num, h2]

example : (true = true ∨ ¬ BelowZero (.fin true 15)) ∧ ¬ (false = true ∨ ¬ BelowZero (.fin true 15)) := ⟨.inl rfl, by simp [BelowZero]⟩

/-- the hypothesis of `C85_float_refused`: no number, and a negative one for an unsigned field -/
example : (∀ x, FloatOf (.str "1,5".toList) x → true = false ∧ BelowZero x) ∧
    (∀ x, FloatOf (.str " -1.5e1 ".toList) x → false = false ∧ BelowZero x) := by
  constructor
  · intro x hx
    have := (floatNew_iff .text _).mpr hx
    have h1 : numText false (strip "1,5".toList) = none := by decide +kernel
    simp only [floatNew, floatOfText, h1] at this
    cases this
  · intro x hx
    have := C85_float_unique hx example_float
    subst this
    exact ⟨rfl, rfl, by norm_num⟩

/-- `0.1` is not a float, but has a nearest one -/
example : NearestDouble (1 / 10) (3602879701896397 / 36028797018963968) :=
  toDouble_nearest (by norm_num) (by decide +kernel)

theorem numeral_of {s : PStr} {neg : Bool} {c : ℕ} {e : ℤ} (h : DecMeans s (.fin neg c e)) : Numeral s neg c e := by
  cases h; assumption

/-- the hypotheses of `C85_float_kept` and `C85_decimal_kept` -/
theorem example_numeral : Numeral (strip "12.50".toList) false 1250 (-2) := by
  have h1 : numText true (strip "12.50".toList) = some (.num false 1250 (-2)) := by decide +kernel
  exact numeral_of ((decOfText_iff (strip "12.50".toList) (.fin false 1250 (-2))).mp (by simp only [decOfText, h1]))

example : decSize 1250 (-2) = (12500000 : ℕ) / 10 ^ 6 ∧ decSize 1250 (-2) < 8589934592 ∧ (33 ≤ 53 ∧ 10 ^ 6 < 2 ^ (53 - 33)) := by
  norm_num [decSize]

/-- the hypothesis of `C85_decimal_lost`: 12.50 with one place is there, 12.55 is not -/
example : (∃ n : ℕ, decSize 1250 (-2) = n / 10 ^ 1) ∧ ∀ n : ℕ, decSize 1255 (-2) ≠ n / 10 ^ 1 := by
  refine ⟨⟨125, by norm_num [decSize]⟩, fun n h => ?_⟩
  have : (2 * n : ℚ) = 251 := by norm_num [decSize] at h ⊢; linarith
  have h2 : 2 * n = 251 := by exact_mod_cast this
  omega

/-- a text that makes a Decimal field raise: signed or not -/
example : DecMeans (strip "sNaN".toList) (.nan true) ∧ DecMeans (strip "NaN".toList) (.nan false) := by
  constructor
  · refine (decOfText_iff _ _).mp ?_
    have h1 : numText true (strip "sNaN".toList) = some (.nan true) := by decide +kernel
    simp only [decOfText, h1]
  · refine (decOfText_iff _ _).mp ?_
    have h1 : numText true (strip "NaN".toList) = some (.nan false) := by decide +kernel
    simp only [decOfText, h1]

/-- a form with a Float, a Decimal and a String field -/
def floatSchema : Schema :=
  .dict ⟨some "f".toList, false, some .none⟩ .full .subset
    [.scalar ⟨some "x".toList, false, some .none⟩ (floatType true 2), .scalar ⟨some "y".toList, false, some .none⟩ (decimalType false 6),
     .scalar ⟨some "z".toList, false, some .none⟩ (stringType true)]

theorem floatSchema_named : WellNamed "_".toList floatSchema := by
  simp [WellNamed, WellNamedAll, floatSchema, GoodName, Compatible, Schema.name, Schema.hdr]
theorem floatSchema_types : AllTypes (fun t => IsBuiltin t ∨ IsFloatType t ∨ IsDecimalType t) floatSchema := by
  refine ⟨.inr (.inl ⟨_, _, rfl⟩), .inr (.inr ⟨_, _, rfl⟩), .inl ⟨.string true, trivial, rfl⟩, trivial⟩

/-- a submission for it that goes through, with a refused Decimal -/
theorem floatSchema_submitted : ∃ e, fromFlat "_".toList floatSchema [("f_y".toList, "-1.5".toList)] = .ok e := by
  have h : ∀ st, scalarSet (decimalType false 6) st (.str "-1.5".toList) = (⟨.none, "-1.5".toList, some (.str "-1.5".toList)⟩, .ok false) := by
    intro st
    have h1 : numText true (strip "-1.5".toList) = some (.num true 15 (-1)) := by decide +kernel
    refine dec_set_below (d := .fin true 15 (-1)) (by simp) ?_ ⟨rfl, by norm_num⟩
    simp only [decNew, decOfText, h1]
  generalize "-1.5".toList = v at h ⊢
  simp only [fromFlat, floatSchema, setFlat]
  rw [show dictPossibles "_".toList (some "f".toList) (List.map (fun p : PStr × PStr => (some p.1, p.2)) [("f_y".toList, v)]) =
    .ok [(some "y".toList, v)] from rfl]
  simp only [List.isEmpty_cons, Bool.false_eq_true, if_false, setFlatFields]
  rw [show accumField (Schema.name (.scalar ⟨some "x".toList, false, some .none⟩ (floatType true 2))) [(some "y".toList, v)] = .ok [] from rfl,
    show accumField (Schema.name (.scalar ⟨some "y".toList, false, some .none⟩ (decimalType false 6))) [(some "y".toList, v)] =
      .ok [(some "y".toList, v)] from rfl,
    show accumField (Schema.name (.scalar ⟨some "z".toList, false, some .none⟩ (stringType true))) [(some "y".toList, v)] = .ok [] from rfl]
  simp [setFlat, scalarSetFlat, h]

example : ∃ e e', fromFlat "_".toList floatSchema [("f_y".toList, "-1.5".toList)] = .ok e ∧ ∀ n, sentBack "_".toList floatSchema (n + 3) e = .ok e' := by
  obtain ⟨e, he⟩ := floatSchema_submitted
  obtain ⟨e', h⟩ := C85_submission cycle_sep floatSchema trivial floatSchema_named floatSchema_types _ e he
  exact ⟨e, e', he, h⟩

end examples
end Flatland
