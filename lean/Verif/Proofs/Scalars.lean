import Verif.Model.Scalars
import Verif.Spec.Scalars
import Verif.Spec.ScalarTypes
import Verif.Proofs.Text
/-! Helper lemmas for the scalar properties. -/
namespace Flatland
open Spec
variable [Runtime]

omit [Runtime] in
theorem placeValue_append (xs ys : List Nat) :
    placeValue (xs ++ ys) = placeValue xs * 10 ^ ys.length + placeValue ys := by
  induction xs with
  | nil => simp [placeValue]
  | cons x xs ih =>
    simp only [List.cons_append, placeValue, ih, List.length_append, Nat.pow_add]
    rw [Nat.add_mul, Nat.mul_assoc, Nat.add_assoc]

theorem digitsAcc_iff (acc : Nat) (s : PStr) (n : Nat) :
    digitsAcc acc s = some n ↔ ∃ ds : List Nat, s.map digit = ds.map some ∧ acc * 10 ^ ds.length + placeValue ds = n := by
  induction s generalizing acc with
  | nil =>
    simp only [digitsAcc, List.map_nil]
    constructor
    · intro h; cases h; exact ⟨[], rfl, by simp [placeValue]⟩
    · rintro ⟨ds, h, rfl⟩
      have : ds = [] := by cases ds <;> simp_all
      subst this; simp [placeValue]
  | cons c s ih =>
    simp only [digitsAcc, List.map_cons]
    cases hc : digit c with
    | none =>
      simp only [reduceCtorEq, false_iff]
      rintro ⟨ds, h, _⟩
      cases ds <;> simp at h
    | some d =>
      simp only [ih]
      constructor
      · rintro ⟨ds, h, rfl⟩
        refine ⟨d :: ds, by simp [h], ?_⟩
        simp only [placeValue, List.length_cons, Nat.pow_succ, Nat.add_mul]
        rw [Nat.add_assoc, Nat.mul_assoc, Nat.mul_comm 10]
      · rintro ⟨ds, h, rfl⟩
        cases ds with
        | nil => simp at h
        | cons e ds =>
          simp at h
          obtain ⟨rfl, h⟩ := h
          refine ⟨ds, h, ?_⟩
          simp only [placeValue, List.length_cons, Nat.pow_succ, Nat.add_mul]
          rw [Nat.add_assoc, Nat.mul_assoc, Nat.mul_comm 10]

theorem digitText_iff (s : PStr) (n : Nat) : DigitText s n ↔ parseDigits s = some n := by
  unfold DigitText parseDigits
  cases s with
  | nil => simp
  | cons c cs =>
    simp only [ne_eq, reduceCtorEq, not_false_eq_true, true_and, List.isEmpty_cons, if_false]
    rw [show digitsAcc 0 (c :: cs) = some n ↔ _ from digitsAcc_iff 0 (c :: cs) n]
    simp

theorem digitText_mem {s : PStr} {n : Nat} (h : DigitText s n) {c : Char} (hc : c ∈ s) : ∃ d, digit c = some d := by
  obtain ⟨_, ds, hd, _⟩ := h
  have : digit c ∈ s.map digit := List.mem_map_of_mem hc
  rw [hd] at this
  obtain ⟨d, _, h⟩ := List.mem_map.1 this
  exact ⟨d, h.symm⟩

theorem digitText_no_space {s : PStr} {n : Nat} (h : DigitText s n) {c : Char} (hc : c ∈ s) : space c = false := by
  obtain ⟨d, hd⟩ := digitText_mem h hc
  exact digit_not_space hd

theorem pyInt_iff (s : PStr) (i : Int) : pyInt s = some i ↔ IntText s i := by
  constructor
  · intro h
    obtain ⟨l, r, hs, hl, hr⟩ := strip_decomp s
    unfold pyInt at h
    split at h
    · rename_i ds heq
      rw [heq] at hs
      rw [Option.map_eq_some_iff] at h
      obtain ⟨n, hn, rfl⟩ := h
      rw [hs]; exact .minus hl hr ((digitText_iff _ _).2 hn)
    · rename_i ds heq
      rw [heq] at hs
      rw [Option.map_eq_some_iff] at h
      obtain ⟨n, hn, rfl⟩ := h
      rw [hs]; exact .plus hl hr ((digitText_iff _ _).2 hn)
    · rw [Option.map_eq_some_iff] at h
      obtain ⟨n, hn, rfl⟩ := h
      rw [hs]; exact .plain hl hr ((digitText_iff _ _).2 hn)
  · intro h
    cases h with
    | @plain l s r n hl hr hs =>
      have hst : strip (l ++ s ++ r) = s := strip_of_decomp hl hr
        (fun c hc => digitText_no_space hs (List.mem_of_head? hc))
        (fun c hc => digitText_no_space hs (List.mem_of_getLast? hc))
      unfold pyInt
      rw [hst]
      have hp := (digitText_iff _ _).1 hs
      split
      · rename_i heq
        obtain ⟨d, hd⟩ := digitText_mem hs (c := '-') (by simp)
        rw [Runtime.minus_not_digit] at hd; cases hd
      · rename_i heq
        obtain ⟨d, hd⟩ := digitText_mem hs (c := '+') (by simp)
        rw [Runtime.plus_not_digit] at hd; cases hd
      · rw [hp]; rfl
    | @plus l s r n hl hr hs =>
      have hst : strip (l ++ '+' :: s ++ r) = '+' :: s := strip_of_decomp hl hr
        (fun c hc => by simp at hc; subst hc; exact Runtime.plus_not_space)
        (fun c hc => by
          have := List.mem_of_getLast? hc
          rcases List.mem_cons.1 this with rfl | h
          · exact Runtime.plus_not_space
          · exact digitText_no_space hs h)
      unfold pyInt
      rw [hst]
      simp [(digitText_iff _ _).1 hs]
    | @minus l s r n hl hr hs =>
      have hst : strip (l ++ '-' :: s ++ r) = '-' :: s := strip_of_decomp hl hr
        (fun c hc => by simp at hc; subst hc; exact Runtime.minus_not_space)
        (fun c hc => by
          have := List.mem_of_getLast? hc
          rcases List.mem_cons.1 this with rfl | h
          · exact Runtime.minus_not_space
          · exact digitText_no_space hs h)
      unfold pyInt
      rw [hst]
      simp [(digitText_iff _ _).1 hs]

theorem pyInt_strip (s : PStr) : pyInt (strip s) = pyInt s := by
  unfold pyInt; rw [strip_strip]

/-! ### the regex matcher -/

/-- specification of `rxMatch` -/
inductive RxSpec : List RxItem → PStr → List Nat → Prop
  | nil : RxSpec [] [] []
  | newline : RxSpec [] ['\n'] []
  | lit {c rest s ns} : RxSpec rest s ns → RxSpec (.lit c :: rest) (c :: s) ns
  | digits {w rest t s n ns} : t.length = w → digitsAcc 0 t = some n → RxSpec rest s ns →
      RxSpec (.digits w :: rest) (t ++ s) (n :: ns)

theorem rxMatch_iff (rx : List RxItem) (s : PStr) (ns : List Nat) : rxMatch rx s = some ns ↔ RxSpec rx s ns := by
  induction rx generalizing s ns with
  | nil =>
    simp only [rxMatch]
    constructor
    · intro h
      split at h
      · rename_i hs; cases h
        rcases hs with rfl | rfl
        · exact .nil
        · exact .newline
      · cases h
    · intro h; cases h <;> simp
  | cons it rest ih =>
    cases it with
    | lit c =>
      constructor
      · intro h
        simp only [rxMatch] at h
        split at h
        · split at h
          · subst_vars; exact .lit ((ih _ _).1 h)
          · cases h
        · cases h
      · intro h
        cases h with
        | lit h => simp [rxMatch, (ih _ _).2 h]
    | digits w =>
      constructor
      · intro h
        simp only [rxMatch] at h
        split at h
        · cases h
        · split at h
          · rename_i hlen _ _ n ns' h1 h2
            cases h
            have := RxSpec.digits (w := w) (t := s.take w) (by simp; omega) h1 ((ih _ _).1 h2)
            simpa using this
          · cases h
      · intro h
        cases h with
        | @digits _ _ t s n ns hl hd hr =>
          subst hl
          simp [rxMatch, hd, (ih _ _).2 hr]

/-! ### dates -/

omit [Runtime] in
theorem validDate_iff (y m d : Nat) : validDate y m d = true ↔ RealDate y m d := by
  unfold validDate RealDate
  simp only [Bool.and_eq_true, decide_eq_true_eq]
  constructor
  · rintro ⟨⟨⟨⟨⟨h1, h2⟩, h3⟩, h4⟩, h5⟩, h6⟩
    refine ⟨h1, h2, h3, h5, daysInMonth y m, ?_, h6⟩
    have hl : isLeap y = true ↔ (4 ∣ y ∧ ¬ 100 ∣ y) ∨ 400 ∣ y := by
      simp [isLeap, Nat.dvd_iff_mod_eq_zero]; omega
    have : m = 1 ∨ m = 2 ∨ m = 3 ∨ m = 4 ∨ m = 5 ∨ m = 6 ∨ m = 7 ∨ m = 8 ∨ m = 9 ∨ m = 10 ∨ m = 11 ∨ m = 12 := by omega
    rcases this with h | h | h | h | h | h | h | h | h | h | h | h <;> subst h <;>
      simp [monthLength, daysInMonth, ← hl]
  · rintro ⟨h1, h2, h3, h5, len, hlen, h6⟩
    have hl : isLeap y = true ↔ (4 ∣ y ∧ ¬ 100 ∣ y) ∨ 400 ∣ y := by
      simp [isLeap, Nat.dvd_iff_mod_eq_zero]; omega
    unfold monthLength at hlen
    have hm : m - 1 < 12 := by
      have := (List.getElem?_eq_some_iff.1 hlen).1
      simpa using this
    refine ⟨⟨⟨⟨⟨h1, h2⟩, h3⟩, by omega⟩, h5⟩, ?_⟩
    have : m = 1 ∨ m = 2 ∨ m = 3 ∨ m = 4 ∨ m = 5 ∨ m = 6 ∨ m = 7 ∨ m = 8 ∨ m = 9 ∨ m = 10 ∨ m = 11 ∨ m = 12 := by omega
    rcases this with h | h | h | h | h | h | h | h | h | h | h | h <;> subst h <;>
      simp [← hl] at hlen <;> subst hlen <;> simpa [daysInMonth] using h6

omit [Runtime] in
theorem validTime_iff (h mi s : Nat) : validTime h mi s = true ↔ RealTime h mi s := by
  unfold validTime RealTime
  simp only [Bool.and_eq_true, decide_eq_true_eq]
  omega

omit [Runtime] in
theorem decimal_length_le {n w : Nat} (hw : 0 < w) (h : n < 10 ^ w) : (decimal n).length ≤ w := by
  induction w generalizing n with
  | zero => omega
  | succ w ih =>
    by_cases hn : n < 10
    · simp [decimal_lt hn]
    · rw [decimal_ge hn]
      simp
      have hw' : 0 < w := by
        rcases w with _ | w
        · simp at h; omega
        · omega
      apply ih hw'
      rw [Nat.pow_succ] at h
      omega

omit [Runtime] in
theorem padNat_length {n w : Nat} (hw : 0 < w) (h : n < 10 ^ w) : (padNat w n).length = w := by
  have := decimal_length_le hw h
  simp [padNat]; omega

theorem field_padNat {n w : Nat} (hw : 0 < w) (h : n < 10 ^ w) : Field w (padNat w n) n :=
  ⟨(digitText_iff _ _).2 (parseDigits_padNat w n), padNat_length hw h⟩

theorem temporalText_err {rx mk b s e} (h : temporalText rx mk b s = .error e) : e = .adaptation := by
  unfold temporalText at h
  split at h
  · cases h; rfl
  · split at h
    · cases h; rfl
    · cases h

theorem integer_adapt_err (hInt : ∀ n e, Runtime.intObj (.obj n) = .error e → numberCatches e = true)
    {sg w x e} (h : (integerType sg w).adapt x = .error e) : e = .adaptation := by
  cases x with
  | none => simp [integerType] at h
  | str s =>
    simp only [integerType, intOf] at h
    cases hp : pyInt (strip s) with
    | none => simp [hp, numberCatches] at h; exact h.symm
    | some i =>
      simp only [hp] at h; split at h
      · cases h; rfl
      · cases h
  | int i =>
    simp only [integerType, intOf] at h; split at h
    · cases h; rfl
    · cases h
  | bool b =>
    have : ∀ i : Int, (if (!sg && decide (i < 0)) = true then Except.error PyErr.adaptation else .ok (PyVal.int i)) = .error e → e = .adaptation := by
      intro i h; split at h
      · cases h; rfl
      · cases h
    exact this _ h
  | obj n =>
    simp only [integerType, intOf] at h
    cases hp : Runtime.intObj (.obj n) with
    | error e' => simp [hp, hInt n e' hp] at h; exact h.symm
    | ok i =>
      simp only [hp] at h; split at h
      · cases h; rfl
      · cases h
  | date | time | datetime | list | dict => simp [integerType, intOf, numberCatches] at h; exact h.symm

theorem field_digitsAcc {w s n} (h : Field w s n) : digitsAcc 0 s = some n := by
  have := (digitText_iff s n).1 h.1
  unfold parseDigits at this
  split at this
  · cases this
  · exact this

theorem rx_date_complete {Y M D y m d} (hY : Field 4 Y y) (hM : Field 2 M m) (hD : Field 2 D d) :
    rxMatch dateRx (Y ++ ['-'] ++ M ++ ['-'] ++ D) = some [y, m, d] := by
  rw [rxMatch_iff]
  have := RxSpec.digits hY.2 (field_digitsAcc hY) (.lit (c := '-') (.digits hM.2 (field_digitsAcc hM)
    (.lit (c := '-') (.digits hD.2 (field_digitsAcc hD) .nil))))
  simpa [dateRx] using this

theorem rx_time_complete {Y M D y m d} (hY : Field 2 Y y) (hM : Field 2 M m) (hD : Field 2 D d) :
    rxMatch timeRx (Y ++ [':'] ++ M ++ [':'] ++ D) = some [y, m, d] := by
  rw [rxMatch_iff]
  have := RxSpec.digits hY.2 (field_digitsAcc hY) (.lit (c := ':') (.digits hM.2 (field_digitsAcc hM)
    (.lit (c := ':') (.digits hD.2 (field_digitsAcc hD) .nil))))
  simpa [timeRx] using this

theorem rx_dateTime_complete {Y M D y m d H I S h i s} (hY : Field 4 Y y) (hM : Field 2 M m) (hD : Field 2 D d)
    (hH : Field 2 H h) (hI : Field 2 I i) (hS : Field 2 S s) :
    rxMatch dateTimeRx ((Y ++ ['-'] ++ M ++ ['-'] ++ D) ++ ' ' :: (H ++ [':'] ++ I ++ [':'] ++ S)) =
      some [y, m, d, h, i, s] := by
  rw [rxMatch_iff]
  have := RxSpec.digits hY.2 (field_digitsAcc hY) (.lit (c := '-') (.digits hM.2 (field_digitsAcc hM)
    (.lit (c := '-') (.digits hD.2 (field_digitsAcc hD) (.lit (c := ' ')
    (.digits hH.2 (field_digitsAcc hH) (.lit (c := ':') (.digits hI.2 (field_digitsAcc hI)
    (.lit (c := ':') (.digits hS.2 (field_digitsAcc hS) .nil))))))))))
  simpa [dateTimeRx] using this

omit [Runtime] in
theorem daysInMonth_le (y m : Nat) : daysInMonth y m ≤ 31 := by
  unfold daysInMonth; repeat' split
  all_goals omega

omit [Runtime] in
theorem realDate_bounds {y m d : Nat} (h : RealDate y m d) : y < 10 ^ 4 ∧ m < 10 ^ 2 ∧ d < 10 ^ 2 := by
  have h' := (validDate_iff y m d).2 h
  simp only [validDate, Bool.and_eq_true, decide_eq_true_eq] at h'
  have := daysInMonth_le y m
  omega

theorem fmtDate_text {y m d : Nat} (h : RealDate y m d) : DateText (fmtDate y m d) y m d := by
  obtain ⟨h1, h2, h3⟩ := realDate_bounds h
  exact ⟨_, _, _, field_padNat (by omega) h1, field_padNat (by omega) h2, field_padNat (by omega) h3, by simp [fmtDate]⟩

theorem fmtTime_text {h mi s : Nat} (ht : RealTime h mi s) : TimeText (fmtTime h mi s) h mi s := by
  obtain ⟨h1, h2, h3⟩ := ht
  exact ⟨_, _, _, field_padNat (by omega) (by omega), field_padNat (by omega) (by omega),
    field_padNat (by omega) (by omega), by simp [fmtTime]⟩

/-- text starting and ending in digits is not changed by `strip` -/
theorem strip_digits_ends {A B : PStr} {a b wa wb : Nat} (hA : Field wa A a) (hB : Field wb B b) (m : PStr) :
    strip (A ++ m ++ B) = A ++ m ++ B := by
  apply strip_eq_self
  · intro c hc
    cases hA' : A with
    | nil => exact absurd hA' hA.1.1
    | cons x xs =>
      rw [hA'] at hc; simp at hc; subst hc
      exact digitText_no_space hA.1 (by simp [hA'])
  · intro c hc
    have hB' := hB.1.1
    rw [List.getLast?_append] at hc
    cases hl : B.getLast? with
    | none => exact absurd (List.getLast?_eq_none_iff.1 hl) hB'
    | some x =>
      rw [hl] at hc; simp at hc; subst hc
      exact digitText_no_space hB.1 (List.mem_of_getLast? hl)

theorem strip_dateText {s y m d} (h : DateText s y m d) : strip s = s := by
  obtain ⟨Y, M, D, hY, hM, hD, rfl⟩ := h
  have := strip_digits_ends hY hD ('-' :: M ++ ['-'])
  simpa using this

theorem strip_timeText {s y m d} (h : TimeText s y m d) : strip s = s := by
  obtain ⟨Y, M, D, hY, hM, hD, rfl⟩ := h
  have := strip_digits_ends hY hD (':' :: M ++ [':'])
  simpa using this

theorem strip_dateTimeText {s t y m d h mi sec} (hs : DateText s y m d) (ht : TimeText t h mi sec) :
    strip (s ++ ' ' :: t) = s ++ ' ' :: t := by
  obtain ⟨Y, M, D, hY, hM, hD, rfl⟩ := hs
  obtain ⟨H, I, S, hH, hI, hS, rfl⟩ := ht
  have := strip_digits_ends hY hS ('-' :: M ++ ['-'] ++ D ++ ' ' :: H ++ ':' :: I ++ [':'])
  simpa using this

theorem date_adapt_fmt {b : Bool} {y m d : Nat} (h : RealDate y m d) :
    (dateType b).adapt (.str (fmtDate y m d)) = .ok (.date y m d) := by
  have ht := fmtDate_text h
  have hs := strip_dateText ht
  obtain ⟨Y, M, D, hY, hM, hD, he⟩ := ht
  simp only [dateType, temporalText]
  rw [show (if b = true then strip (fmtDate y m d) else fmtDate y m d) = fmtDate y m d by cases b <;> simp [hs]]
  rw [he, rx_date_complete hY hM hD]
  simp [mkDate, (validDate_iff y m d).2 h]

theorem time_adapt_fmt {b : Bool} {h mi s : Nat} (hr : RealTime h mi s) :
    (timeType b).adapt (.str (fmtTime h mi s)) = .ok (.time h mi s 0) := by
  have ht := fmtTime_text hr
  have hs := strip_timeText ht
  obtain ⟨Y, M, D, hY, hM, hD, he⟩ := ht
  simp only [timeType, temporalText]
  rw [show (if b = true then strip (fmtTime h mi s) else fmtTime h mi s) = fmtTime h mi s by cases b <;> simp [hs]]
  rw [he, rx_time_complete hY hM hD]
  simp [mkTime, (validTime_iff h mi s).2 hr]

theorem dateTime_adapt_fmt {b : Bool} {y m d h mi s : Nat} (hd : RealDate y m d) (hr : RealTime h mi s) :
    (dateTimeType b).adapt (.str (fmtDate y m d ++ ' ' :: fmtTime h mi s)) = .ok (.datetime y m d h mi s 0) := by
  have h1 := fmtDate_text hd
  have h2 := fmtTime_text hr
  have hs := strip_dateTimeText h1 h2
  obtain ⟨Y, M, D, hY, hM, hD, he⟩ := h1
  obtain ⟨H, I, S, hH, hI, hS, he'⟩ := h2
  simp only [dateTimeType, temporalText]
  rw [show (if b = true then strip (fmtDate y m d ++ ' ' :: fmtTime h mi s) else fmtDate y m d ++ ' ' :: fmtTime h mi s)
    = fmtDate y m d ++ ' ' :: fmtTime h mi s by cases b <;> simp [hs]]
  rw [he, he', rx_dateTime_complete hY hM hD hH hI hS]
  simp [mkDateTime, (validDate_iff y m d).2 hd, (validTime_iff h mi s).2 hr]

/-- values adapted from text are real dates / times and carry no sub-second part -/
theorem temporalText_mk {rx mk b s v} (h : temporalText rx mk b s = .ok v) : ∃ ns, mk ns = some v := by
  unfold temporalText at h
  split at h
  · cases h
  · split at h
    · cases h
    · cases h; exact ⟨_, by assumption⟩

omit [Runtime] in
theorem mkDate_some {ns v} (h : mkDate ns = some v) : ∃ y m d, v = .date y m d ∧ RealDate y m d := by
  unfold mkDate at h
  split at h
  · split at h
    · cases h; exact ⟨_, _, _, rfl, (validDate_iff _ _ _).1 (by assumption)⟩
    · cases h
  · cases h

omit [Runtime] in
theorem mkTime_some {ns v} (h : mkTime ns = some v) : ∃ a b c, v = .time a b c 0 ∧ RealTime a b c := by
  unfold mkTime at h
  split at h
  · split at h
    · cases h; exact ⟨_, _, _, rfl, (validTime_iff _ _ _).1 (by assumption)⟩
    · cases h
  · cases h

omit [Runtime] in
theorem mkDateTime_some {ns v} (h : mkDateTime ns = some v) :
    ∃ y m d a b c, v = .datetime y m d a b c 0 ∧ RealDate y m d ∧ RealTime a b c := by
  unfold mkDateTime at h
  split at h
  · split at h
    · rename_i hv
      cases h
      rw [Bool.and_eq_true] at hv
      exact ⟨_, _, _, _, _, _, rfl, (validDate_iff _ _ _).1 hv.1, (validTime_iff _ _ _).1 hv.2⟩
    · cases h
  · cases h

/-- what adapting yields when it yields a non-None value -/
theorem adapt_native {b : Builtin} {x v : PyVal} (hx : Native x) (h : b.type.adapt x = .ok v) : Native v := by
  induction b generalizing v with
  | string s => cases x <;> simp [Builtin.type, stringType] at h <;> subst h <;> trivial
  | integer sg w =>
    cases x <;> simp only [Builtin.type, integerType] at h
    case none => cases h; trivial
    all_goals
      split at h
      · cases h
      · split at h
        · cases h
        · cases h; trivial
  | boolean c =>
    cases x <;> simp only [Builtin.type, booleanType] at h
    case str =>
      split at h
      · cases h; trivial
      · split at h <;> cases h; trivial
    all_goals cases h; trivial
  | date s =>
    cases x <;> simp only [Builtin.type, dateType] at h
    case str =>
      obtain ⟨_, h⟩ := temporalText_mk h
      obtain ⟨y, m, d, rfl, hr⟩ := mkDate_some h
      exact hr
    all_goals cases h
    all_goals exact hx
  | time s =>
    cases x <;> simp only [Builtin.type, timeType] at h
    case str =>
      obtain ⟨_, h⟩ := temporalText_mk h
      obtain ⟨y, m, d, rfl, hr⟩ := mkTime_some h
      exact ⟨hr, by omega⟩
    all_goals cases h
    all_goals exact hx
  | dateTime s =>
    cases x <;> simp only [Builtin.type, dateTimeType] at h
    case str =>
      obtain ⟨_, h⟩ := temporalText_mk h
      obtain ⟨y, m, d, _, _, _, rfl, hr, hr'⟩ := mkDateTime_some h
      exact ⟨hr, hr', by omega⟩
    all_goals cases h
    all_goals exact hx
  | enum c vs ih =>
    simp only [Builtin.type, enumType, constrainedType] at h
    cases hc : c.type.adapt x with
    | error e' => rw [hc] at h; cases h
    | ok w =>
      rw [hc] at h
      simp only [bind, Except.bind] at h
      split at h
      · cases h; exact ih hc
      · cases h

/-- Text of an adapted non-None value, adapted again: either the value itself (always when exact), or at worst
something with the same text, or (Enum whose inexact value is not listed) a rejection. -/
theorem readapt {b : Builtin} (hb : b.Consistent) {x v : PyVal} {s : PStr} (hx : Native x)
    (h : b.type.adapt x = .ok v) (hv : v ≠ .none) (hs : b.type.serialize v = .ok s) :
    (b.Exact v → b.type.adapt (.str s) = .ok v) ∧
    (b.type.adapt (.str s) = .error .adaptation ∨
      ∃ w, w ≠ .none ∧ b.type.adapt (.str s) = .ok w ∧ b.type.serialize w = .ok s) := by
  have hnv := adapt_native hx h
  induction b generalizing v s with
  | string st =>
    have hval : ∃ t, v = .str (if st then strip t else t) := by
      cases x <;> simp [Builtin.type, stringType] at h
      case none => exact absurd h.symm hv
      all_goals exact ⟨_, by rw [← h]⟩
    obtain ⟨t, rfl⟩ := hval
    have hs' : s = if st then strip t else t := by
      simp [Builtin.type, stringType, pyText] at hs
      rw [← hs]
      cases st <;> simp [strip_strip]
    have : (Builtin.string st).type.adapt (.str s) = .ok (.str (if st then strip t else t)) := by
      rw [hs']; cases st <;> simp [Builtin.type, stringType, pyText, strip_strip]
    exact ⟨fun _ => this, .inr ⟨_, by simp, this, hs⟩⟩
  | integer sg w =>
    have hval : ∃ i : Int, v = .int i ∧ (sg = false → 0 ≤ i) := by
      cases x <;> simp only [Builtin.type, integerType] at h
      case none => cases h; exact absurd rfl hv
      all_goals
        split at h
        · cases h
        · split at h
          · cases h
          · rename_i hneg
            cases h
            exact ⟨_, rfl, fun hsg => by simp [hsg] at hneg; omega⟩
    obtain ⟨i, rfl, hi⟩ := hval
    simp [Builtin.type, integerType] at hs
    subst hs
    have : (Builtin.integer sg w).type.adapt (.str (padInt w i)) = .ok (.int i) := by
      simp only [Builtin.type, integerType, intOf, pyInt_strip, pyInt_padInt]
      cases sg
      · have := hi rfl
        simp; omega
      · simp
    exact ⟨fun _ => this, .inr ⟨_, by simp, this, by simp [Builtin.type, integerType]⟩⟩
  | boolean c =>
    have hval : ∃ bb, v = .bool bb := by
      cases x <;> simp only [Builtin.type, booleanType] at h
      case str =>
        split at h
        · cases h; exact ⟨_, rfl⟩
        · split at h <;> cases h; exact ⟨_, rfl⟩
      all_goals cases h; exact ⟨_, rfl⟩
    obtain ⟨bb, rfl⟩ := hval
    obtain ⟨h1, h2⟩ := hb
    simp [Builtin.type, booleanType, truthy] at hs
    have : (Builtin.boolean c).type.adapt (.str s) = .ok (.bool bb) := by
      rw [← hs]
      cases bb <;> simp [Builtin.type, booleanType, h1, h2]
    exact ⟨fun _ => this, .inr ⟨_, by simp, this, by simp [Builtin.type, booleanType, truthy, hs]⟩⟩
  | date st =>
    have hval : (∃ y m d, v = .date y m d) ∨ ∃ y m d a b c e, v = .datetime y m d a b c e := by
      cases x <;> simp only [Builtin.type, dateType] at h
      case str =>
        obtain ⟨_, h⟩ := temporalText_mk h
        obtain ⟨y, m, d, rfl, hr⟩ := mkDate_some h
        exact .inl ⟨_, _, _, rfl⟩
      case none => cases h; exact absurd rfl hv
      all_goals cases h
      · exact .inl ⟨_, _, _, rfl⟩
      · exact .inr ⟨_, _, _, _, _, _, _, rfl⟩
    rcases hval with ⟨y, m, d, rfl⟩ | ⟨y, m, d, a, b, c, e, rfl⟩
    · simp [Builtin.type, dateType] at hs
      subst hs
      have := date_adapt_fmt (b := st) hnv
      exact ⟨fun _ => this, .inr ⟨_, by simp, this, by simp [Builtin.type, dateType]⟩⟩
    · simp [Builtin.type, dateType] at hs
      subst hs
      have := date_adapt_fmt (b := st) hnv.1
      exact ⟨fun h => h.elim, .inr ⟨_, by simp, this, by simp [Builtin.type, dateType]⟩⟩
  | time st =>
    have hval : ∃ a b c e, v = .time a b c e := by
      cases x <;> simp only [Builtin.type, timeType] at h
      case str =>
        obtain ⟨_, h⟩ := temporalText_mk h
        obtain ⟨y, m, d, rfl, hr⟩ := mkTime_some h
        exact ⟨_, _, _, _, rfl⟩
      case none => cases h; exact absurd rfl hv
      all_goals cases h
      exact ⟨_, _, _, _, rfl⟩
    obtain ⟨a, b, c, e, rfl⟩ := hval
    simp [Builtin.type, timeType] at hs
    subst hs
    have := time_adapt_fmt (b := st) hnv.1
    refine ⟨fun he => ?_, .inr ⟨_, by simp, this, by simp [Builtin.type, timeType]⟩⟩
    have he : e = 0 := he
    subst he; exact this
  | dateTime st =>
    have hval : ∃ y m d a b c e, v = .datetime y m d a b c e := by
      cases x <;> simp only [Builtin.type, dateTimeType] at h
      case str =>
        obtain ⟨_, h⟩ := temporalText_mk h
        obtain ⟨y, m, d, _, _, _, rfl, hr⟩ := mkDateTime_some h
        exact ⟨_, _, _, _, _, _, _, rfl⟩
      case none => cases h; exact absurd rfl hv
      all_goals cases h
      exact ⟨_, _, _, _, _, _, _, rfl⟩
    obtain ⟨y, m, d, a, b, c, e, rfl⟩ := hval
    simp [Builtin.type, dateTimeType] at hs
    subst hs
    have := dateTime_adapt_fmt (b := st) hnv.1 hnv.2.1
    refine ⟨fun he => ?_, .inr ⟨_, by simp, this, by simp [Builtin.type, dateTimeType]⟩⟩
    have he : e = 0 := he
    subst he; exact this
  | enum c vs ih =>
    simp only [Builtin.type, enumType, constrainedType] at h hs
    cases hc : c.type.adapt x with
    | error e' => rw [hc] at h; cases h
    | ok w =>
      rw [hc] at h
      simp only [bind, Except.bind] at h
      split at h
      · rename_i hvalid
        cases h
        obtain ⟨i1, i2⟩ := ih hb hc hv hs hnv
        refine ⟨fun he => ?_, ?_⟩
        · simp only [Builtin.type, enumType, constrainedType, i1 he, bind, Except.bind, hvalid, if_true]
        · rcases i2 with i2 | ⟨w, hw1, hw2, hw3⟩
          · left; simp only [Builtin.type, enumType, constrainedType, i2, bind, Except.bind]
          · simp only [Builtin.type, enumType, constrainedType, hw2, bind, Except.bind]
            by_cases hvw : enumValid vs w = true
            · right; exact ⟨w, hw1, by simp [hvw], hw3⟩
            · left; simp [hvw]
      · cases h

/-- adapting text never yields None, never an inexact value, and fails only with AdaptationError -/
theorem adapt_text (b : Builtin) (s : PStr) :
    b.type.adapt (.str s) = .error .adaptation ∨ ∃ v, b.type.adapt (.str s) = .ok v ∧ v ≠ .none ∧ b.Exact v := by
  induction b with
  | string st => right; simp [Builtin.type, stringType, Builtin.Exact]
  | integer sg w =>
    simp only [Builtin.type, integerType, intOf]
    cases pyInt (strip s) with
    | none => left; simp [numberCatches]
    | some i =>
      simp only []
      split
      · exact .inl rfl
      · exact .inr ⟨_, rfl, by simp, trivial⟩
  | boolean c =>
    simp only [Builtin.type, booleanType]
    split
    · exact .inr ⟨_, rfl, by simp, trivial⟩
    · split
      · exact .inr ⟨_, rfl, by simp, trivial⟩
      · exact .inl rfl
  | date st =>
    cases h : (Builtin.date st).type.adapt (.str s) with
    | error e => left; rw [temporalText_err h]
    | ok v =>
      obtain ⟨_, h⟩ := temporalText_mk h
      obtain ⟨y, m, d, rfl, hr⟩ := mkDate_some h
      exact .inr ⟨_, rfl, by simp, trivial⟩
  | time st =>
    cases h : (Builtin.time st).type.adapt (.str s) with
    | error e => left; rw [temporalText_err h]
    | ok v =>
      obtain ⟨_, h⟩ := temporalText_mk h
      obtain ⟨y, m, d, rfl, hr⟩ := mkTime_some h
      exact .inr ⟨_, rfl, by simp, rfl⟩
  | dateTime st =>
    cases h : (Builtin.dateTime st).type.adapt (.str s) with
    | error e => left; rw [temporalText_err h]
    | ok v =>
      obtain ⟨_, h⟩ := temporalText_mk h
      obtain ⟨y, m, d, _, _, _, rfl, hr⟩ := mkDateTime_some h
      exact .inr ⟨_, rfl, by simp, rfl⟩
  | enum c vs ih =>
    rcases ih with h | ⟨v, h, hv, he⟩
    · left; simp only [Builtin.type, enumType, constrainedType, h, bind, Except.bind]
    · simp only [Builtin.type, enumType, constrainedType, h, bind, Except.bind]
      by_cases hvw : enumValid vs v = true
      · right; exact ⟨v, by simp [hvw], hv, he⟩
      · left; simp [hvw]

theorem scalarSet_ok {t : ScalarType} {st x v s} (h : t.adapt x = .ok v) (hv : v ≠ .none) (hs : t.serialize v = .ok s) :
    scalarSet t st x = (⟨v, s, some x⟩, .ok true) := by
  unfold scalarSet
  rw [h]
  cases v <;> simp_all

theorem scalarSet_text_err {t : ScalarType} {st s} (h : t.adapt (.str s) = .error .adaptation) :
    scalarSet t st (.str s) = (⟨.none, s, some (.str s)⟩, .ok false) := by
  unfold scalarSet; rw [h]

/-- Serialization of adapted non-None values never fails (built-in classes). -/
theorem builtin_serialize_ok (b : Builtin) (v : PyVal) : ∃ s, b.type.serialize v = .ok s := by
  induction b with
  | enum c vs ih => exact ih
  | string | integer | date | time | dateTime =>
    cases v <;> simp [Builtin.type, stringType, integerType, dateType, timeType, dateTimeType]
  | boolean => simp [Builtin.type, booleanType]

theorem scalarSet_value (t : ScalarType) (st x) : (scalarSet t st x).1.value =
    match t.adapt x with
    | .ok v => v
    | .error .adaptation => .none
    | .error _ => st.value := by
  unfold scalarSet
  cases h : t.adapt x with
  | error e => cases e <;> rfl
  | ok v =>
    cases v <;> simp only [] <;> split <;> rfl

theorem truthy_iff (v : PyVal) : truthy v = false ↔ FalseValue v := by
  unfold FalseValue
  cases v <;> simp [truthy]
  case time h m s u => omega

omit [Runtime] in
theorem numberCatches_iff (e : PyErr) : numberCatches e = true ↔ e = .value ∨ e = .type ∨ e = .zeroDivision := by
  cases e <;> simp [numberCatches]

end Flatland
