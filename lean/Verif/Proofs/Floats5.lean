import Verif.Proofs.Floats4
import Verif.Proofs.Cycle3
import Verif.Proofs.Parts
import Verif.Proofs.HalfWay
import Verif.Props.Tree
/-
Proofs for C85: the texts are unique, and setting an element from its own text settles.
-/
namespace Flatland
open Spec

/-! ### the texts are unique -/

theorem digitsValue_snoc (s : PStr) (c : Char) : digitsValue (s ++ [c]) = digitsValue s * 10 + (c.toNat - 48) := by
  simp [digitsValue]

theorem digitsValue_append (s t : PStr) : digitsValue (s ++ t) = digitsValue s * 10 ^ t.length + digitsValue t := by
  induction t using List.reverseRecOn with
  | nil => simp [digitsValue]
  | append_singleton t c ih =>
    rw [← List.append_assoc, digitsValue_snoc, ih, digitsValue_snoc, List.length_append]
    simp only [List.length_singleton, pow_succ]
    ring

theorem asciiDigit_toNat {c : Char} (h : IsAsciiDigit c) : 48 ≤ c.toNat ∧ c.toNat ≤ 57 := by
  obtain ⟨h1, h2⟩ := h
  exact ⟨h1, h2⟩

theorem digitsValue_lt {s : PStr} (h : ∀ c ∈ s, IsAsciiDigit c) : digitsValue s < 10 ^ s.length := by
  induction s using List.reverseRecOn with
  | nil => simp [digitsValue]
  | append_singleton t c ih =>
    rw [digitsValue_snoc, List.length_append, List.length_singleton, pow_succ]
    have h1 := ih fun x hx => h x (by simp [hx])
    have h2 := asciiDigit_toNat (h c (by simp))
    omega

theorem char_of_toNat {a b : Char} (h : a.toNat = b.toNat) : a = b := by
  have : a.val = b.val := UInt32.toNat_inj.mp h
  exact Char.ext this

theorem digitsValue_inj : ∀ {s t : PStr}, s.length = t.length → (∀ c ∈ s, IsAsciiDigit c) → (∀ c ∈ t, IsAsciiDigit c) →
    digitsValue s = digitsValue t → s = t := by
  intro s
  induction s using List.reverseRecOn with
  | nil => intro t hl _ _ _; exact (List.length_eq_zero_iff.mp (by simpa using hl.symm)).symm
  | append_singleton s c ih =>
    intro t hl hs ht hv
    rcases List.eq_nil_or_concat t with rfl | ⟨t, d, rfl⟩
    · simp at hl
    · rw [List.concat_eq_append] at hl ht hv ⊢
      rw [digitsValue_snoc, digitsValue_snoc] at hv
      have hc := asciiDigit_toNat (hs c (by simp))
      have hd := asciiDigit_toNat (ht d (by simp))
      have h1 : digitsValue s = digitsValue t := by omega
      have h2 : c = d := char_of_toNat (by omega)
      rw [ih (by simpa using hl) (fun x hx => hs x (by simp [hx])) (fun x hx => ht x (by simp [hx])) h1, h2]

/-- digits without needless zeros in front say at least this much -/
theorem digitsValue_ge {c : Char} {s : PStr} (h : ∀ x ∈ c :: s, IsAsciiDigit x) (hc : c ≠ '0') : 10 ^ s.length ≤ digitsValue (c :: s) := by
  have : c :: s = [c] ++ s := rfl
  rw [this, digitsValue_append]
  have h1 := asciiDigit_toNat (h c (by simp))
  have h2 : c.toNat ≠ 48 := fun hh => hc (char_of_toNat hh)
  have h3 : digitsValue [c] = c.toNat - 48 := by simp [digitsValue]
  rw [h3]
  have : 1 ≤ c.toNat - 48 := by omega
  calc 10 ^ s.length = 1 * 10 ^ s.length := by ring
    _ ≤ (c.toNat - 48) * 10 ^ s.length := Nat.mul_le_mul_right _ this
    _ ≤ _ := by omega

theorem whole_length {s t : PStr} (hs : ∀ c ∈ s, IsAsciiDigit c) (ht : ∀ c ∈ t, IsAsciiDigit c) (hsn : s ≠ []) (htn : t ≠ [])
    (hs0 : s.head? = some '0' → s = ['0']) (hv : digitsValue s = digitsValue t) : s.length ≤ t.length := by
  cases s with
  | nil => exact absurd rfl hsn
  | cons c s =>
    by_cases hc : c = '0'
    · subst hc
      have := hs0 rfl
      rw [this]
      exact List.length_pos_iff.mpr htn
    · have h1 := digitsValue_ge hs hc
      have h2 := digitsValue_lt ht
      rw [hv] at h1
      have h3 := (Nat.pow_lt_pow_iff_right (by norm_num : 1 < 10)).mp (h1.trans_lt h2)
      simp only [List.length_cons]; omega

theorem shownAs_unique {k n : ℕ} {s t : PStr} (hs : ShownAs k n s) (ht : ShownAs k n t) : s = t := by
  obtain ⟨w, f, rfl, hf, hd, hv, hw, hw0⟩ := hs
  obtain ⟨w', f', rfl, hf', hd', hv', hw', hw0'⟩ := ht
  have hw1 : ∀ c ∈ w, IsAsciiDigit c := fun c hc => hd c (by simp [hc])
  have hw2 : ∀ c ∈ w', IsAsciiDigit c := fun c hc => hd' c (by simp [hc])
  have hf1 : ∀ c ∈ f, IsAsciiDigit c := fun c hc => hd c (by simp [hc])
  have hf2 : ∀ c ∈ f', IsAsciiDigit c := fun c hc => hd' c (by simp [hc])
  rw [digitsValue_append, hf] at hv
  rw [digitsValue_append, hf'] at hv'
  have hl1 := digitsValue_lt hf1
  have hl2 := digitsValue_lt hf2
  rw [hf] at hl1
  rw [hf'] at hl2
  have heq : digitsValue w = digitsValue w' := by
    have h1 : n / 10 ^ k = digitsValue w := by
      rw [← hv, Nat.add_comm, Nat.add_mul_div_right _ _ (by positivity), Nat.div_eq_of_lt hl1, Nat.zero_add]
    have h2 : n / 10 ^ k = digitsValue w' := by
      rw [← hv', Nat.add_comm, Nat.add_mul_div_right _ _ (by positivity), Nat.div_eq_of_lt hl2, Nat.zero_add]
    rw [← h1, h2]
  have heqf : digitsValue f = digitsValue f' := by rw [heq] at hv; omega
  have h1 : w = w' := digitsValue_inj (le_antisymm (whole_length hw1 hw2 hw hw' hw0 heq) (whole_length hw2 hw1 hw' hw hw0' heq.symm)) hw1 hw2 heq
  have h2 : f = f' := digitsValue_inj (hf.trans hf'.symm) hf1 hf2 heqf
  rw [h1, h2]

theorem showsFloat_unique {k : ℕ} {x : FloatVal} {s t : PStr} (hs : ShowsFloat k x s) (ht : ShowsFloat k x t) : s = t := by
  cases x with
  | nan => exact hs.trans ht.symm
  | inf neg => exact hs.trans ht.symm
  | fin neg d =>
    obtain ⟨n, a, h1, h2, rfl⟩ := hs
    obtain ⟨m, b, h3, h4, rfl⟩ := ht
    have : n = m := round_unique h1.1 h1.2 h3.1 h3.2
    subst this
    rw [shownAs_unique h2 h4]

section
variable [Runtime] [NumberRuntime]

/-! ### settling -/

/-- what a Float element can be after a call of `set` that raised nothing -/
def FloatHeld (signed : Bool) (k : Nat) (st : ScalarState) : Prop :=
  (∃ x, IsFloat x ∧ (signed = true ∨ ¬ BelowZero x) ∧ st.u = floatText k x)

theorem floatHeld_text {signed : Bool} {k : Nat} {st : ScalarState} (h : FloatHeld signed k st) :
    ∃ y, IsFloat y ∧ (signed = true ∨ ¬ BelowZero y) ∧ floatText k y = st.u ∧
      ∀ st0, scalarSet (floatType signed k) st0 (.str st.u) = (⟨floatVal y, st.u, some (.str st.u)⟩, .ok true) := by
  obtain ⟨x, hx, hs, hu⟩ := h
  obtain ⟨y, h1, h2, h3, h4⟩ := float_again k hx
  have hs' : signed = true ∨ ¬ BelowZero y := hs.imp id h4
  refine ⟨y, h3, hs', by rw [h2, hu], fun st0 => ?_⟩
  have hof : FloatOf (.str st.u) y := .text (by rw [hu, strip_floatText]; exact h1)
  rw [float_set_ok hof hs', h2, ← hu]

/-- the second text of a Float is the same as the first, and so is what it says -/
theorem float_text_twice (signed : Bool) (k : Nat) (st : ScalarState) (s : PStr) :
    ∃ b st1 st2, scalarSet (floatType signed k) st (.str s) = (st1, .ok b) ∧
      (∀ st0, scalarSet (floatType signed k) st0 (.str st1.u) = (st2, .ok b)) ∧ st2.u = st1.u ∧
      ∀ st0, scalarSet (floatType signed k) st0 (.str st2.u) = (st2, .ok b) := by
  rcases float_cases signed (v := .str s) .text with ⟨x, hx, hs⟩ | h
  · have hheld : FloatHeld signed k ⟨floatVal x, floatText k x, some (.str s)⟩ := ⟨x, floatOf_isFloat hx, hs, rfl⟩
    obtain ⟨y, _, _, _, h4⟩ := floatHeld_text hheld
    exact ⟨true, _, _, float_set_ok hx hs, h4, rfl, h4⟩
  · have h1 : ∀ st0, scalarSet (floatType signed k) st0 (.str s) = (⟨.none, s, some (.str s)⟩, .ok false) := fun st0 =>
      float_set_refused .text h
    exact ⟨false, _, _, h1 st, h1, rfl, h1⟩

/-- what a Decimal element can be after it has been set from a text without an exception -/
inductive DecHeld (signed : Bool) (k : Nat) : ScalarState → Prop
  | shown {st z} : IsFloat z → (signed = true ∨ (z ≠ .nan ∧ ¬ BelowZero z)) → st.u = floatText k z → DecHeld signed k st
  | refused {st} : (∀ st0, scalarSet (decimalType signed k) st0 (.str st.u) = (⟨.none, st.u, some (.str st.u)⟩, .ok false)) → DecHeld signed k st

omit [Runtime] [NumberRuntime] in
theorem decAsFloat_nan {d : DecVal} {z : FloatVal} (h : DecAsFloat d z) (hd : ∀ b, d ≠ .nan b) : z ≠ .nan := by
  cases h with
  | nan => exact absurd rfl (hd false)
  | _ => simp

omit [Runtime] [NumberRuntime] in
theorem decAsFloat_below {d : DecVal} {z : FloatVal} (h : DecAsFloat d z) (hd : ¬ DecBelowZero d) : ¬ BelowZero z := by
  cases h with
  | @number neg c e x ht hn =>
    rintro ⟨rfl, hx⟩
    apply hd
    refine ⟨rfl, ?_⟩
    rintro rfl
    apply hx
    have := hn.2.1 0 isDouble_zero
    simpa [decSize] using this
  | @tooLarge neg c e ht =>
    intro hh
    apply hd
    refine ⟨hh, ?_⟩
    rintro rfl
    unfold TooLarge decSize at ht
    have h0 : (0 : ℚ) < 2 ^ 1024 - 2 ^ 970 := sub_pos.mpr (pow_lt_pow_right₀ (by norm_num) (by norm_num))
    simp only [Nat.cast_zero, zero_mul] at ht
    exact absurd ht (not_le.mpr h0)
  | inf => exact hd
  | nan => exact id

theorem dec_text_cases (signed : Bool) (k : Nat) (s : PStr) :
    (∃ d y, DecMeans (strip s) d ∧ (signed = true ∨ ((∀ b, d ≠ .nan b) ∧ ¬ DecBelowZero d)) ∧ DecAsFloat d y ∧
      ∀ st, scalarSet (decimalType signed k) st (.str s) = (⟨decVal d, floatText k y, some (.str s)⟩, .ok true)) ∨
    (∀ st, scalarSet (decimalType signed k) st (.str s) = (⟨.none, s, some (.str s)⟩, .ok false)) ∨
    (∀ st, ∃ e, (scalarSet (decimalType signed k) st (.str s)).2 = .error e) := by
  by_cases h : ∃ d, DecMeans (strip s) d
  · obtain ⟨d, hd⟩ := h
    have hn := decOf_text_new hd
    by_cases hs : signed = true ∨ ((∀ b, d ≠ .nan b) ∧ ¬ DecBelowZero d)
    · by_cases hsn : d = .nan true
      · refine .inr (.inr fun st => ⟨.value, ?_⟩)
        rw [dec_set (by simp) hn hs, hsn]
        rfl
      · obtain ⟨y, hy, hy'⟩ := decAsFloat_exists hsn
        refine .inl ⟨d, y, hd, hs, hy', fun st => ?_⟩
        rw [dec_set (by simp) hn hs, hy]
    · have hsg : signed = false := by
        cases signed
        · rfl
        · exact absurd (.inl rfl) hs
      subst hsg
      by_cases hnan : ∃ b, d = .nan b
      · obtain ⟨b, rfl⟩ := hnan
        refine .inr (.inr fun st => ⟨.arithmetic, ?_⟩)
        rw [dec_set_nan (by simp) hn]
      · have hb : DecBelowZero d := by
          by_contra hc
          exact hs (.inr ⟨fun b hb => hnan ⟨b, hb⟩, hc⟩)
        exact .inr (.inl fun st => dec_set_below (by simp) hn hb)
  · exact .inr (.inl fun st => dec_set_refused fun d hd => h ⟨d, hd⟩)

theorem dec_held {signed : Bool} {k : Nat} {st st1 : ScalarState} {s : PStr} {b : Bool}
    (h : scalarSet (decimalType signed k) st (.str s) = (st1, .ok b)) : DecHeld signed k st1 := by
  rcases dec_text_cases signed k s with ⟨d, y, hd, hs, hy, hset⟩ | hset | hset
  · rw [hset st] at h
    simp only [Prod.mk.injEq] at h
    rw [← h.1]
    refine .shown (decAsFloat_isFloat hy) (hs.imp id fun hh => ⟨decAsFloat_nan hy hh.1, decAsFloat_below hy hh.2⟩) rfl
  · rw [hset st] at h
    simp only [Prod.mk.injEq] at h
    rw [← h.1]
    exact .refused hset
  · obtain ⟨e, he⟩ := hset st
    rw [h] at he
    simp at he

theorem decHeld_text {signed : Bool} {k : Nat} {st : ScalarState} (h : DecHeld signed k st) :
    ∃ b st2, (∀ st0, scalarSet (decimalType signed k) st0 (.str st.u) = (st2, .ok b)) ∧ st2.u = st.u := by
  cases h with
  | @shown z hz hs hu =>
    obtain ⟨d, y, h1, h2, h3, h4, h5, h6, h7, h8⟩ := dec_again k hz
    have hn : decNew (.str st.u) = .ok d := by
      refine decOf_text_new ?_
      rw [hu, strip_floatText]; exact h1
    have hs' : signed = true ∨ ((∀ b, d ≠ .nan b) ∧ ¬ DecBelowZero d) := by
      refine hs.imp id fun ⟨ha, hb⟩ => ⟨h6.2 ha, ?_⟩
      cases z with
      | nan => exact absurd rfl ha
      | inf neg => rw [h7 neg rfl]; exact hb
      | fin neg x =>
        rw [h8 neg x rfl]
        rintro ⟨rfl, hx⟩
        apply hb
        refine ⟨rfl, ?_⟩
        rintro rfl
        apply hx
        simpa using roundEven_natCast 0
    obtain ⟨y', hy', hy''⟩ := decAsFloat_exists h5
    have : y' = y := by
      have := (floatOfDec_iff d y).mpr h2
      rw [hy'] at this
      simpa using this
    subst this
    refine ⟨true, ⟨decVal d, floatText k y', some (.str st.u)⟩, fun st0 => ?_, ?_⟩
    · rw [dec_set (by simp) hn hs', hy']
    · rw [hu, ← h3]
  | refused h => exact ⟨false, _, h, rfl⟩

theorem dec_text_twice {signed : Bool} {k : Nat} {st st1 : ScalarState} {s : PStr} {b : Bool}
    (h : scalarSet (decimalType signed k) st (.str s) = (st1, .ok b)) :
    ∃ st2, (∀ st0, scalarSet (decimalType signed k) st0 (.str st1.u) = (st2, .ok b)) ∧ st2.u = st1.u ∧
      ∀ st0, scalarSet (decimalType signed k) st0 (.str st2.u) = (st2, .ok b) := by
  obtain ⟨b2, st2, h1, h2⟩ := decHeld_text (dec_held h)
  have h3 := dec_held (h1 .fresh)
  have hb : b2 = b := by
    rcases dec_text_cases signed k s with ⟨d, y, hd, hs, hy, hset⟩ | hset | hset
    · rw [hset st] at h
      simp only [Prod.mk.injEq, Except.ok.injEq] at h
      obtain ⟨h, rfl⟩ := h
      have hheld : DecHeld signed k st1 := dec_held (hset st |>.trans (by rw [h]))
      have hz : DecHeld signed k st1 := .shown (decAsFloat_isFloat hy)
        (hs.imp id fun hh => ⟨decAsFloat_nan hy hh.1, decAsFloat_below hy hh.2⟩) (by rw [← h])
      cases b2 with
      | true => rfl
      | false =>
        exfalso
        obtain ⟨d', y', g1, g2, g3, g4, g5, g6, g7, g8⟩ := dec_again k (decAsFloat_isFloat hy)
        have hu : st1.u = floatText k y := by rw [← h]
        have hn : decNew (.str st1.u) = .ok d' := decOf_text_new (by rw [hu, strip_floatText]; exact g1)
        rcases dec_text_cases signed k st1.u with ⟨d2, y2, a1, a2, a3, a4⟩ | hset2 | hset2
        · have := h1 .fresh
          rw [a4 .fresh] at this
          simp at this
        · have hs' : signed = true ∨ ((∀ b, d' ≠ .nan b) ∧ ¬ DecBelowZero d') := by
            refine hs.imp id fun ⟨ha, hb⟩ => ⟨g6.2 (decAsFloat_nan hy ha), ?_⟩
            cases y with
            | nan => exact absurd rfl (decAsFloat_nan hy ha)
            | inf neg => rw [g7 neg rfl]; exact decAsFloat_below hy hb
            | fin neg x =>
              rw [g8 neg x rfl]
              rintro ⟨rfl, hx⟩
              apply decAsFloat_below hy hb
              refine ⟨rfl, ?_⟩
              rintro rfl
              apply hx
              simpa using roundEven_natCast 0
          have := hset2 .fresh
          rw [dec_set (by simp) hn hs', (floatOfDec_iff d' y').mpr g2] at this
          simp at this
        · obtain ⟨e, he⟩ := hset2 .fresh
          rw [h1 .fresh] at he
          simp at he
    · rw [hset st] at h
      simp only [Prod.mk.injEq, Except.ok.injEq] at h
      obtain ⟨rfl, rfl⟩ := h
      have := h1 .fresh
      rw [hset .fresh] at this
      simp only [Prod.mk.injEq, Except.ok.injEq] at this
      exact this.2.symm
    · obtain ⟨e, he⟩ := hset st
      rw [h] at he
      simp at he
  subst hb
  refine ⟨st2, h1, h2, fun st0 => ?_⟩
  rw [h2]; exact h1 st0

/-! ### fields of a submitted form -/

/-- the element is new, or was set from a text and raised nothing -/
def FromText (_ : Bool) (t : ScalarType) (st : ScalarState) : Prop :=
  st = .fresh ∨ ∃ st0 s b, scalarSet t st0 (.str s) = (st, .ok b)

omit [NumberRuntime] in
theorem fromText_fresh (s : Schema) : ∀ p, EachScalar FromText p s (fresh s) := by
  induction s using Schema.rec (motive_2 := fun fs => ∀ (p : Bool) (mode : DictMode), EachScalarAll FromText p fs (freshFields mode fs)) with
  | scalar h t => intro p; simp only [fresh, EachScalar]; exact .inl rfl
  | dict h mode po fs ih => intro p; simp only [fresh, EachScalar]; exact ih p mode
  | list h prune max m ih => intro p; simp [fresh, EachScalar]
  | array h prune m ih => intro p; simp [fresh, EachScalar]
  | nil p mode => simp [freshFields, EachScalarAll]
  | cons f fs ihf ihfs p mode =>
    simp only [freshFields, EachScalarAll]
    refine ⟨?_, ihfs p mode⟩
    split
    · exact ihf p
    · cases f <;> simp [EachScalar]

omit [NumberRuntime] in
theorem fromText_scalarSetFlat {name : Option PStr} {t : ScalarType} {ps : List FPair} {e : Elem}
    (h : scalarSetFlat name t .fresh ps = .ok e) (hd : Hdr) (p : Bool) : EachScalar FromText p (.scalar hd t) e := by
  unfold scalarSetFlat at h
  split at h
  · simp only [Except.ok.injEq] at h
    subst h
    exact .inl rfl
  · split at h
    · rename_i heq
      simp only [Except.ok.injEq] at h
      subst h
      exact .inr ⟨_, _, _, heq⟩
    · simp at h

omit [NumberRuntime] in
theorem fromText_arrayMembers {sep : PStr} {name : Option PStr} {prune : Bool} {hm : Hdr} {t : ScalarType} : ∀ {ps : List FPair} {ks : List Elem},
    arrayMembers sep name prune hm t ps = .ok ks → ∀ k ∈ ks, EachScalar FromText false (.scalar hm t) k := by
  intro ps
  induction ps with
  | nil => intro ks h; simp only [arrayMembers, Except.ok.injEq] at h; subst h; simp
  | cons x ps ih =>
    intro ks h
    rw [arrayMembers] at h
    cases hp : arrayPick sep name hm.name prune x with
    | error e => simp [hp, bind, Except.bind] at h
    | ok o =>
      cases o with
      | none => simp only [hp, bind, Except.bind] at h; exact ih h
      | some key =>
        cases hs : scalarSetFlat hm.name t .fresh [(key, x.2)] with
        | error e => simp [hp, bind, Except.bind, hs] at h
        | ok m =>
          cases hr : arrayMembers sep name prune hm t ps with
          | error e => simp [hp, bind, Except.bind, hs, hr] at h
          | ok ms =>
            simp only [hp, bind, Except.bind, hs, hr, Except.ok.injEq] at h
            subst h
            intro k hk
            rcases List.mem_cons.mp hk with rfl | hk
            · exact fromText_scalarSetFlat hs hm false
            · exact ih hr k hk

omit [Runtime] [NumberRuntime] in
theorem mapM_mem {α β ε : Type} {f : α → Except ε β} : ∀ {l : List α} {r : List β}, l.mapM f = .ok r → ∀ y ∈ r, ∃ x ∈ l, f x = .ok y := by
  intro l
  induction l with
  | nil => intro r h; simp [pure, Except.pure] at h; subst h; simp
  | cons a l ih =>
    intro r h
    rw [List.mapM_cons] at h
    cases ha : f a with
    | error e => simp [ha, bind, Except.bind] at h
    | ok b =>
      cases hl : l.mapM f with
      | error e => simp [ha, hl, bind, Except.bind] at h
      | ok bs =>
        simp only [ha, hl, bind, Except.bind, pure, Except.pure, Except.ok.injEq] at h
        subst h
        intro y hy
        rcases List.mem_cons.mp hy with rfl | hy
        · exact ⟨a, by simp, ha⟩
        · obtain ⟨x, hx, hfx⟩ := ih hl y hy
          exact ⟨x, by simp [hx], hfx⟩

omit [NumberRuntime] in
/-- every field of a form that came of a submission is new or was set from a text -/
theorem fromText_setFlat {sep : PStr} (s : Schema) : ∀ (p : Bool) (ps : List FPair) (e : Elem), setFlat sep s (fresh s) ps = .ok e →
    EachScalar FromText p s e := by
  induction s using Schema.rec (motive_2 := fun fs => ∀ (p : Bool) (mode : DictMode) (ps : List FPair) (ks : List Elem),
      setFlatFields sep fs (freshFields mode fs) ps = .ok ks → EachScalarAll FromText p fs ks) with
  | scalar h t =>
    intro p ps e he
    rw [setFlat] at he
    exact fromText_scalarSetFlat he h p
  | dict h mode po fs ih =>
    intro p ps e he
    rw [setFlat] at he
    split at he
    · simp at he
    · split at he
      · simp only [Except.ok.injEq] at he
        subst he
        exact fromText_fresh _ p
      · split at he
        · simp at he
        · rename_i ks hks
          simp only [Except.ok.injEq] at he
          subst he
          exact ih p mode _ ks hks
  | list h prune max m ih =>
    intro p ps e he
    obtain ⟨ms, kids, _, rfl, hk⟩ := setFlat_rows he
    simp only [EachScalar]
    intro k hk'
    obtain ⟨i, _, hi⟩ := mapM_mem hk k hk'
    split at hi
    · simp only [Except.ok.injEq] at hi
      subst hi
      exact fromText_fresh m _
    · exact ih _ _ k hi
  | array h prune m ih =>
    intro p ps e he
    cases m with
    | scalar hm t =>
      rw [setFlat] at he
      split at he
      · simp at he
      · rename_i ks hks
        simp only [Except.ok.injEq] at he
        subst he
        exact fromText_arrayMembers hks
    | _ => simp [setFlat] at he
  | nil p mode ps ks hk => cases ks <;> simp [EachScalarAll]
  | cons f fs ihf ihfs p mode ps ks hk =>
    rw [freshFields, setFlatFields] at hk
    split at hk
    · simp at hk
    · split at hk
      · simp at hk
      · rename_i kid' hkid
        split at hk
        · simp at hk
        · rename_i rest hrest
          simp only [Except.ok.injEq] at hk
          subst hk
          simp only [List.tail_cons] at hrest
          refine ⟨?_, ihfs p mode _ rest hrest⟩
          simp only [List.headD_cons] at hkid
          split at hkid
          · simp only [Except.ok.injEq] at hkid
            subst hkid
            split
            · exact fromText_fresh f p
            · cases f <;> simp [EachScalar]
          · have ho : orFresh f (if autoField mode f = true then fresh f else .absent) = fresh f := by
              split
              · cases f <;> simp [fresh, orFresh]
              · rfl
            rw [ho] at hkid
            exact ihf p _ kid' hkid

omit [NumberRuntime] in
/-- a form that comes of a submission is a form of the class -/
theorem fromFlat_conforms {sep : PStr} {s : Schema} {ps : List (PStr × PStr)} {e : Elem} (h : fromFlat sep s ps = .ok e) : Conforms s e := by
  have h1 := setFlatRun_outcome sep s (fresh s) (ps.map fun p => (some p.1, p.2))
  have h2 := setFlatRun_conforms sep s (fresh s) (ps.map fun p => (some p.1, p.2)) (fresh_conforms s)
  rw [show setFlat sep s (fresh s) (ps.map fun p => (some p.1, p.2)) = .ok e from h] at h1
  rcases hr : setFlatRun sep s (fresh s) (ps.map fun p => (some p.1, p.2)) with ⟨a, x⟩
  rw [hr] at h1 h2
  cases x <;> simp [Ended.outcome, Except.map] at h1
  exact h1 ▸ h2

omit [NumberRuntime] in
omit [Runtime] in
theorem each_and {P Q : Bool → ScalarType → ScalarState → Prop} {s : Schema} : ∀ {p : Bool} {e : Elem}, EachScalar P p s e → EachScalar Q p s e →
    EachScalar (fun p t st => P p t st ∧ Q p t st) p s e := by
  induction s using Schema.rec (motive_2 := fun fs => ∀ (p : Bool) (ks : List Elem), EachScalarAll P p fs ks → EachScalarAll Q p fs ks →
      EachScalarAll (fun p t st => P p t st ∧ Q p t st) p fs ks) with
  | scalar h t => intro p e h1 h2; cases e <;> simp only [EachScalar] at *; exact ⟨h1, h2⟩
  | dict h mode po fs ih => intro p e h1 h2; cases e <;> simp only [EachScalar] at *; exact ih _ _ h1 h2
  | list h prune max m ih => intro p e h1 h2; cases e <;> simp only [EachScalar] at *; exact fun k hk => ih (h1 k hk) (h2 k hk)
  | array h prune m ih => intro p e h1 h2; cases e <;> simp only [EachScalar] at *; exact fun k hk => ih (h1 k hk) (h2 k hk)
  | nil p ks _ _ => cases ks <;> simp [EachScalarAll]
  | cons f fs ihf ihfs p ks h1 h2 =>
    cases ks with
    | nil => simp [EachScalarAll]
    | cons k ks => exact ⟨ihf h1.1 h2.1, ihfs p ks h1.2 h2.2⟩

omit [NumberRuntime] in
omit [Runtime] in
theorem each_mono {P Q : Bool → ScalarType → ScalarState → Prop} (hPQ : ∀ p t st, P p t st → Q p t st) (s : Schema) : ∀ (p : Bool) (e : Elem),
    EachScalar P p s e → EachScalar Q p s e := by
  induction s using Schema.rec (motive_2 := fun fs => ∀ (p : Bool) (ks : List Elem), EachScalarAll P p fs ks → EachScalarAll Q p fs ks) with
  | scalar h t => intro p e h1; cases e <;> simp only [EachScalar] at *; exact hPQ _ _ _ h1
  | dict h mode po fs ih => intro p e h1; cases e <;> simp only [EachScalar] at *; exact ih _ _ h1
  | list h prune max m ih => intro p e h1; cases e <;> simp only [EachScalar] at *; exact fun k hk => ih _ k (h1 k hk)
  | array h prune m ih => intro p e h1; cases e <;> simp only [EachScalar] at *; exact fun k hk => ih _ k (h1 k hk)
  | nil p ks _ => cases ks <;> simp [EachScalarAll]
  | cons f fs ihf ihfs p ks h1 =>
    cases ks with
    | nil => simp [EachScalarAll]
    | cons k ks => exact ⟨ihf p k h1.1, ihfs p ks h1.2⟩

/-- the scalar reads its own text without an exception, and is then shown in the same way for ever -/
def Calms (_ : Bool) (t : ScalarType) (st : ScalarState) : Prop :=
  ∃ b st1 b' st2, scalarSet t .fresh (.str st.u) = (st1, .ok b) ∧ scalarSet t .fresh (.str st1.u) = (st2, .ok b') ∧ st2.u = st1.u

omit [NumberRuntime] in
theorem takes_of_calm {p : Bool} {t : ScalarType} {st : ScalarState} (h : Calms p t st) : TakesItsText p t st := by
  obtain ⟨b, st1, _, _, h1, _⟩ := h
  exact .inr ⟨b, by rw [h1]⟩

omit [NumberRuntime] in
theorem steady_of_calm {p : Bool} {t : ScalarType} {st : ScalarState} (h : Calms p t st) :
    Steady p t (if p && st.u == [] then .fresh else (scalarSet t .fresh (.str st.u)).1) := by
  obtain ⟨b, st1, b', st2, h1, h2, h3⟩ := h
  split
  · rename_i hp
    simp only [Bool.and_eq_true] at hp
    exact ⟨.inl (by simp [hp.1, ScalarState.fresh]), by simp [ReadsBack, SameText, hp.1, ScalarState.fresh]⟩
  · rw [h1]
    refine ⟨.inr ⟨b', by rw [h2]⟩, ?_⟩
    simp only [ReadsBack, SameText]
    split
    · rename_i hp
      simp only [Bool.and_eq_true, beq_iff_eq] at hp
      rw [hp.2]; rfl
    · rw [h2]; exact h3.symm

theorem calm_of {p : Bool} {t : ScalarType} {st : ScalarState} (ht : IsBuiltin t ∨ IsFloatType t ∨ IsDecimalType t) (hst : FromText p t st) :
    Calms p t st := by
  rcases ht with ⟨b, hb, rfl⟩ | ⟨signed, k, rfl⟩ | ⟨signed, k, rfl⟩
  · have hf := C09_builtin_reads_back b hb .fresh st.u
    obtain ⟨o1, h1⟩ := builtin_text_ok b .fresh st.u
    obtain ⟨⟨o2, h2⟩, h3⟩ := hf
    refine ⟨o1, _, o2, _, Prod.ext rfl h1, Prod.ext rfl h2, ?_⟩
    simp only [ReadsBack, SameData, Bool.false_and, Bool.false_eq_true, if_false] at h3
    exact h3.1.symm
  · obtain ⟨b, st1, st2, h1, h2, h3, h4⟩ := float_text_twice signed k .fresh st.u
    exact ⟨b, st1, b, st2, h1, h2 _, h3⟩
  · have key : ∃ b st1, scalarSet (decimalType signed k) .fresh (.str st.u) = (st1, .ok b) := by
      rcases hst with rfl | ⟨st0, s, b, h⟩
      · refine ⟨false, _, dec_set_refused (s := []) fun d hd => ?_⟩
        have := (decOfText_iff _ _).mpr hd
        rw [show strip ([] : PStr) = [] from rfl] at this
        simp [decOfText, numText, signOf, wordOf, finiteOf, fractionOf, parseDigits, exponentOf] at this
      · obtain ⟨b2, st2, h1, h2⟩ := decHeld_text (dec_held h)
        exact ⟨b2, st2, h1 _⟩
    obtain ⟨b, st1, h1⟩ := key
    obtain ⟨st2, h2, h3, _⟩ := dec_text_twice h1
    exact ⟨b, st1, b, st2, h1, h2 _, h3⟩

end
end Flatland
