import Verif.Props.Scalars
import Verif.Spec.Rejected
/-! Helper lemmas about the printed forms of rejected values. -/
namespace Flatland
open Spec
variable [Runtime]

theorem around_mem {b : Bool} {s core : PStr} (h : Around b s core) :
    (∀ c ∈ core, c ∈ s) ∧ (∀ c ∈ s, c ∈ core ∨ space c = true) ∧
      (∀ c r d q, s = c :: r → core = d :: q → space c = true ∨ c = d) := by
  unfold Around at h
  cases b with
  | true =>
    simp only [if_true] at h
    obtain ⟨l, r, hl, hr, rfl⟩ := h
    refine ⟨fun c hc => by simp [hc], fun c hc => ?_, ?_⟩
    · simp only [List.mem_append] at hc
      rcases hc with (hc | hc) | hc
      · exact .inr (hl c hc)
      · exact .inl hc
      · exact .inr (hr c hc)
    · rintro c r' d q hs rfl
      cases l with
      | nil => simp at hs; exact .inr hs.1.symm
      | cons x xs => simp at hs; left; rw [← hs.1]; exact hl x (by simp)
  | false =>
    simp only [Bool.false_eq_true, if_false] at h
    rcases h with rfl | rfl
    · exact ⟨fun c hc => hc, fun c hc => .inl hc, fun c r d q h1 h2 => by rw [h1] at h2; cases h2; exact .inr rfl⟩
    · refine ⟨fun c hc => by simp [hc], fun c hc => ?_, ?_⟩
      · simp only [List.mem_append, List.mem_singleton] at hc
        rcases hc with hc | rfl
        · exact .inl hc
        · exact .inr Runtime.newline_is_space
      · rintro c r d q hs rfl
        simp at hs; exact .inr hs.1.symm

theorem field_mem {w s n} (h : Field w s n) {c} (hc : c ∈ s) : ∃ d, digit c = some d := digitText_mem h.1 hc

theorem dateText_mem {s y m d} (h : DateText s y m d) :
    '-' ∈ s ∧ (∀ c ∈ s, (∃ k, digit c = some k) ∨ c = '-') ∧ ∃ x r k, s = x :: r ∧ digit x = some k := by
  obtain ⟨Y, M, D, hY, hM, hD, rfl⟩ := h
  refine ⟨by simp, ?_, ?_⟩
  · intro c hc
    simp only [List.mem_append, List.mem_singleton] at hc
    rcases hc with (((hc | hc) | hc) | hc) | hc
    · exact .inl (field_mem hY hc)
    · exact .inr hc
    · exact .inl (field_mem hM hc)
    · exact .inr hc
    · exact .inl (field_mem hD hc)
  · cases Y with
    | nil => have := hY.2; simp at this
    | cons x xs =>
      obtain ⟨k, hk⟩ := field_mem hY (c := x) (by simp)
      exact ⟨x, _, k, rfl, hk⟩

theorem timeText_mem {s y m d} (h : TimeText s y m d) :
    ':' ∈ s ∧ (∀ c ∈ s, (∃ k, digit c = some k) ∨ c = ':') ∧ ∃ x r k, s = x :: r ∧ digit x = some k := by
  obtain ⟨Y, M, D, hY, hM, hD, rfl⟩ := h
  refine ⟨by simp, ?_, ?_⟩
  · intro c hc
    simp only [List.mem_append, List.mem_singleton] at hc
    rcases hc with (((hc | hc) | hc) | hc) | hc
    · exact .inl (field_mem hY hc)
    · exact .inr hc
    · exact .inl (field_mem hM hc)
    · exact .inr hc
    · exact .inl (field_mem hD hc)
  · cases Y with
    | nil => have := hY.2; simp at this
    | cons x xs =>
      obtain ⟨k, hk⟩ := field_mem hY (c := x) (by simp)
      exact ⟨x, _, k, rfl, hk⟩

/-- what a text accepted by Date looks like -/
theorem date_ok_mem {b s v} (h : (dateType b).adapt (.str s) = .ok v) :
    '-' ∈ s ∧ (∀ c ∈ s, (∃ k, digit c = some k) ∨ c = '-' ∨ space c = true) ∧
      ∀ c r, s = c :: r → space c = true ∨ ∃ k, digit c = some k := by
  obtain ⟨core, y, m, d, ha, ht, -, -⟩ := (C03_date_iff b s v).1 h
  obtain ⟨h1, h2, x, r, k, hx, hk⟩ := dateText_mem ht
  obtain ⟨a1, a2, a3⟩ := around_mem ha
  refine ⟨a1 _ h1, fun c hc => ?_, fun c q hs => ?_⟩
  · rcases a2 c hc with h | h
    · rcases h2 c h with h | h
      · exact .inl h
      · exact .inr (.inl h)
    · exact .inr (.inr h)
  · rcases a3 c q x r hs hx with h | rfl
    · exact .inl h
    · exact .inr ⟨k, hk⟩

/-- what a text accepted by Time looks like -/
theorem time_ok_mem {b s v} (h : (timeType b).adapt (.str s) = .ok v) :
    ':' ∈ s ∧ (∀ c ∈ s, (∃ k, digit c = some k) ∨ c = ':' ∨ space c = true) ∧
      ∀ c r, s = c :: r → space c = true ∨ ∃ k, digit c = some k := by
  obtain ⟨core, y, m, d, ha, ht, -, -⟩ := (C03_time_iff b s v).1 h
  obtain ⟨h1, h2, x, r, k, hx, hk⟩ := timeText_mem ht
  obtain ⟨a1, a2, a3⟩ := around_mem ha
  refine ⟨a1 _ h1, fun c hc => ?_, fun c q hs => ?_⟩
  · rcases a2 c hc with h | h
    · rcases h2 c h with h | h
      · exact .inl h
      · exact .inr (.inl h)
    · exact .inr (.inr h)
  · rcases a3 c q x r hs hx with h | rfl
    · exact .inl h
    · exact .inr ⟨k, hk⟩

/-- what a text accepted by DateTime looks like -/
theorem dateTime_ok_mem {b s v} (h : (dateTimeType b).adapt (.str s) = .ok v) :
    '-' ∈ s ∧ ':' ∈ s ∧ (∀ c ∈ s, (∃ k, digit c = some k) ∨ c = '-' ∨ c = ':' ∨ space c = true) ∧
      ∀ c r, s = c :: r → space c = true ∨ ∃ k, digit c = some k := by
  obtain ⟨dt, tt, y, m, d, hh, mi, sec, ha, hd, ht, -, -, -⟩ := (C03_dateTime_iff b s v).1 h
  obtain ⟨h1, h2, x, r, k, hx, hk⟩ := dateText_mem hd
  obtain ⟨g1, g2, -⟩ := timeText_mem ht
  obtain ⟨a1, a2, a3⟩ := around_mem ha
  refine ⟨a1 _ (by simp [h1]), a1 _ (by simp [g1]), fun c hc => ?_, fun c q hs => ?_⟩
  · rcases a2 c hc with h | h
    · simp only [List.mem_append, List.mem_cons] at h
      rcases h with h | rfl | h
      · rcases h2 c h with h | h
        · exact .inl h
        · exact .inr (.inl h)
      · exact .inr (.inr (.inr Runtime.space_is_space))
      · rcases g2 c h with h | h
        · exact .inl h
        · exact .inr (.inr (.inl h))
    · exact .inr (.inr (.inr h))
  · rcases a3 c q x (r ++ ' ' :: tt) hs (by simp [hx]) with h | rfl
    · exact .inl h
    · exact .inr ⟨k, hk⟩

/-- what a text accepted by Integer looks like -/
theorem intText_mem {s i} (h : IntText s i) :
    (∀ c ∈ s, (∃ k, digit c = some k) ∨ c = '-' ∨ c = '+' ∨ space c = true) ∧
    (∀ x r k, s = x :: r → digit x = some k → ∀ c ∈ s, (∃ k, digit c = some k) ∨ space c = true) := by
  have key : ∀ (l : PStr) (g : Char) (q : PStr), Blank l → digit g = none → ∀ x r k, l ++ g :: q = x :: r → digit x = some k → False := by
    intro l g q hl hg x r k hs hk
    cases l with
    | nil => simp at hs; rw [← hs.1, hg] at hk; cases hk
    | cons y ys =>
      simp at hs
      have := Runtime.space_not_digit y (hl y (by simp))
      rw [hs.1, hk] at this; cases this
  cases h with
  | @plain l s r n hl hr hd =>
    have : ∀ c ∈ l ++ s ++ r, (∃ k, digit c = some k) ∨ space c = true := by
      intro c hc
      simp only [List.mem_append] at hc
      rcases hc with (hc | hc) | hc
      · exact .inr (hl c hc)
      · exact .inl (digitText_mem hd hc)
      · exact .inr (hr c hc)
    refine ⟨fun c hc => ?_, fun _ _ _ _ _ => this⟩
    rcases this c hc with h | h
    · exact .inl h
    · exact .inr (.inr (.inr h))
  | @plus l s r n hl hr hd =>
    refine ⟨fun c hc => ?_, fun x r' k hs hk => ?_⟩
    · simp only [List.mem_append, List.mem_cons] at hc
      rcases hc with (hc | hc | hc) | hc
      · exact .inr (.inr (.inr (hl c hc)))
      · exact .inr (.inr (.inl hc))
      · exact .inl (digitText_mem hd hc)
      · exact .inr (.inr (.inr (hr c hc)))
    · exact (key l '+' (s ++ r) hl Runtime.plus_not_digit x r' k (by simpa using hs) hk).elim
  | @minus l s r n hl hr hd =>
    refine ⟨fun c hc => ?_, fun x r' k hs hk => ?_⟩
    · simp only [List.mem_append, List.mem_cons] at hc
      rcases hc with (hc | hc | hc) | hc
      · exact .inr (.inr (.inr (hl c hc)))
      · exact .inr (.inl hc)
      · exact .inl (digitText_mem hd hc)
      · exact .inr (.inr (.inr (hr c hc)))
    · exact (key l '-' (s ++ r) hl Runtime.minus_not_digit x r' k (by simpa using hs) hk).elim

theorem integer_text_err {sg w s} (h : ∀ i, ¬ IntText s i) : (integerType sg w).adapt (.str s) = .error .adaptation := by
  cases hh : (integerType sg w).adapt (.str s) with
  | ok v =>
    obtain ⟨i, hi, -⟩ := (C05_integer_text_iff sg w s v).1 hh
    exact absurd hi (h i)
  | error e =>
    simp only [integerType, intOf] at hh
    cases hp : pyInt (strip s) with
    | none => simp [hp, numberCatches] at hh; rw [← hh]
    | some i => exact absurd ((pyInt_iff s i).1 (by rw [← pyInt_strip]; exact hp)) (h i)

/-- a text none of the built-in numeric or temporal classes takes: it begins with something neither digit, sign nor white space -/
theorem integer_odd_head {sg w} {c : Char} {r : PStr} (hd : digit c = none) (hs : space c = false) (h1 : c ≠ '-') (h2 : c ≠ '+') :
    (integerType sg w).adapt (.str (c :: r)) = .error .adaptation := by
  refine integer_text_err fun i hi => ?_
  rcases (intText_mem hi).1 c (by simp) with ⟨k, h⟩ | h | h | h
  · rw [hd] at h; cases h
  · exact h1 h
  · exact h2 h
  · rw [hs] at h; cases h

theorem date_err {b s} (h : ∀ v, (dateType b).adapt (.str s) ≠ .ok v) : (dateType b).adapt (.str s) = .error .adaptation := by
  cases hh : (dateType b).adapt (.str s) with
  | ok v => exact absurd hh (h v)
  | error e => rw [temporalText_err hh]
theorem time_err {b s} (h : ∀ v, (timeType b).adapt (.str s) ≠ .ok v) : (timeType b).adapt (.str s) = .error .adaptation := by
  cases hh : (timeType b).adapt (.str s) with
  | ok v => exact absurd hh (h v)
  | error e => rw [temporalText_err hh]
theorem dateTime_err {b s} (h : ∀ v, (dateTimeType b).adapt (.str s) ≠ .ok v) :
    (dateTimeType b).adapt (.str s) = .error .adaptation := by
  cases hh : (dateTimeType b).adapt (.str s) with
  | ok v => exact absurd hh (h v)
  | error e => rw [temporalText_err hh]

theorem odd_head_temporal {b : Bool} {c : Char} {r : PStr} (hd : digit c = none) (hs : space c = false) :
    (dateType b).adapt (.str (c :: r)) = .error .adaptation ∧ (timeType b).adapt (.str (c :: r)) = .error .adaptation ∧
      (dateTimeType b).adapt (.str (c :: r)) = .error .adaptation := by
  have no : ¬ (space c = true ∨ ∃ k, digit c = some k) := by rw [hd, hs]; simp
  exact ⟨date_err fun v h => no ((date_ok_mem h).2.2 c r rfl), time_err fun v h => no ((time_ok_mem h).2.2 c r rfl),
    dateTime_err fun v h => no ((dateTime_ok_mem h).2.2.2 c r rfl)⟩

theorem int_text_same {b : Builtin} {i : Int} (hp : pyInt (strip (decimalInt i)) = some i) (hb : ∀ c, b ≠ .boolean c) (he : ∀ c vs, b ≠ .enum c vs)
    (hminus : ∀ c ∈ decimalInt i, (∃ k, digit c = some k) ∨ c = '-')
    (hhead : ∀ c r, decimalInt i = c :: r → c = '-' ∨ '-' ∉ decimalInt i) :
    b.type.adapt (.str (decimalInt i)) = b.type.adapt (.int i) ∨ b.type.adapt (.str (decimalInt i)) = .error .adaptation := by
  have hcolon : ':' ∉ decimalInt i := by
    intro h
    rcases hminus _ h with ⟨k, hk⟩ | h
    · rw [Runtime.colon_not_digit] at hk; cases hk
    · revert h; decide
  cases b with
  | string s => left; simp [Builtin.type, stringType, pyText]
  | integer sg w => left; simp [Builtin.type, integerType, intOf, hp]
  | boolean c => exact absurd rfl (hb c)
  | enum c vs => exact absurd rfl (he c vs)
  | date s =>
    right; refine date_err fun v h => ?_
    obtain ⟨h1, -, h3⟩ := date_ok_mem h
    cases hd : decimalInt i with
    | nil => rw [hd] at h1; simp at h1
    | cons c r =>
      rcases hhead c r hd with rfl | hn
      · rcases h3 _ r hd with h | ⟨k, h⟩
        · rw [Runtime.minus_not_space] at h; cases h
        · rw [Runtime.minus_not_digit] at h; cases h
      · exact hn h1
  | time s => right; exact time_err fun v h => hcolon (time_ok_mem h).1
  | dateTime s => right; exact dateTime_err fun v h => hcolon (dateTime_ok_mem h).2.1

theorem decimalInt_mem {i : Int} {c : Char} (h : c ∈ decimalInt i) : (∃ k, digit c = some k) ∨ c = '-' := by
  cases i with
  | ofNat n =>
    obtain ⟨d, hd, rfl⟩ := decimal_mem h
    exact .inl ⟨d, Runtime.digit_ascii d hd⟩
  | negSucc n =>
    simp only [decimalInt, List.mem_cons] at h
    rcases h with h | h
    · exact .inr h
    · obtain ⟨d, hd, rfl⟩ := decimal_mem h
      exact .inl ⟨d, Runtime.digit_ascii d hd⟩

theorem decimalInt_head {i : Int} {c : Char} {r : PStr} (h : decimalInt i = c :: r) : c = '-' ∨ '-' ∉ decimalInt i := by
  cases i with
  | ofNat n =>
    right; intro hm
    obtain ⟨d, hd, he⟩ := decimal_mem hm
    have := Runtime.digit_ascii d hd
    unfold digitChar at he
    rw [← he, Runtime.minus_not_digit] at this; cases this
  | negSucc n => simp only [decimalInt] at h; cases h; exact .inl rfl

/-- The text of a printed value, adapted by a class that is not a Boolean or an Enum: what the value itself gives, or a rejection. -/
theorem printed_same (hp : Printing) {b : Builtin} {x : PyVal} (hx : Native x) (hn : x ≠ .none) (ho : ∀ n, x ≠ .obj n)
    (hb : ∀ c, b ≠ .boolean c) (he : ∀ c vs, b ≠ .enum c vs) :
    b.type.adapt (.str (pyText x)) = b.type.adapt x ∨ b.type.adapt (.str (pyText x)) = .error .adaptation := by
  have mk := hp.marks
  simp only [List.mem_cons, List.not_mem_nil, or_false, forall_eq_or_imp, forall_eq] at mk
  obtain ⟨mT, mF, mB, mC, mD, mK⟩ := mk
  have odd : ∀ (c : Char) (r : PStr), pyText x = c :: r → digit c = none → space c = false → c ≠ '-' → c ≠ '+' →
      b.type.adapt (.str (pyText x)) = b.type.adapt x ∨ b.type.adapt (.str (pyText x)) = .error .adaptation := by
    intro c r hr hd hs h1 h2
    rw [hr]
    cases b with
    | string s => left; rw [← hr]; cases x <;> simp_all [Builtin.type, stringType, pyText]
    | integer sg w => exact .inr (integer_odd_head hd hs h1 h2)
    | boolean c => exact absurd rfl (hb c)
    | enum c vs => exact absurd rfl (he c vs)
    | date s => exact .inr (odd_head_temporal hd hs).1
    | time s => exact .inr (odd_head_temporal hd hs).2.1
    | dateTime s => exact .inr (odd_head_temporal hd hs).2.2
  have noint : ∀ (sg : Bool) (w : Nat) (s : PStr) (y : Char) (r : PStr) (k : Nat) (c : Char), s = y :: r → digit y = some k → c ∈ s → digit c = none →
      space c = false → (integerType sg w).adapt (.str s) = .error .adaptation := by
    intro sg w s y r k c hs hk hc hd hsp
    refine integer_text_err fun i hi => ?_
    rcases (intText_mem hi).2 y r k hs hk c hc with ⟨k', h⟩ | h
    · rw [hd] at h; cases h
    · rw [hsp] at h; cases h
  cases x with
  | none => exact absurd rfl hn
  | obj n => exact absurd rfl (ho n)
  | str s => exact .inl rfl
  | bool t =>
    cases t
    · exact odd 'F' "alse".toList rfl mF.1 mF.2 (by decide) (by decide)
    · exact odd 'T' "rue".toList rfl mT.1 mT.2 (by decide) (by decide)
  | list xs =>
    obtain ⟨r, hr⟩ := hp.list xs
    exact odd '[' r hr mB.1 mB.2 (by decide) (by decide)
  | dict xs =>
    obtain ⟨r, hr⟩ := hp.dict xs
    exact odd '{' r hr mC.1 mC.2 (by decide) (by decide)
  | int i =>
    exact int_text_same (by rw [pyInt_strip]; exact pyInt_decimalInt i) hb he (fun c hc => decimalInt_mem hc) (fun c r h => decimalInt_head h)
  | date y m d =>
    have ht := hp.date y m d hx
    obtain ⟨h1, h2, x0, r, k, hx0, hk⟩ := dateText_mem ht
    have nocolon : ':' ∉ Runtime.textObj (.date y m d) := by
      intro h
      rcases h2 _ h with ⟨k, hk⟩ | h
      · rw [mK.1] at hk; cases hk
      · revert h; decide
    cases b with
    | string s => left; simp [Builtin.type, stringType, pyText]
    | integer sg w => exact .inr (noint sg w _ x0 r k '-' hx0 hk h1 Runtime.minus_not_digit Runtime.minus_not_space)
    | boolean c => exact absurd rfl (hb c)
    | enum c vs => exact absurd rfl (he c vs)
    | date s =>
      left
      refine (C03_date_iff s _ _).2 ⟨_, y, m, d, ?_, ht, hx, rfl⟩
      cases s
      · exact .inl rfl
      · exact ⟨[], [], by simp [Blank], by simp [Blank], by simp [pyText]⟩
    | time s => right; exact time_err fun v h => nocolon (time_ok_mem h).1
    | dateTime s => right; exact dateTime_err fun v h => nocolon (dateTime_ok_mem h).2.1
  | time hh mi sec us =>
    obtain ⟨core, rest, hc, ht, h0, h1⟩ := hp.time hh mi sec us hx.1
    obtain ⟨g1, g2, x0, r, k, hx0, hk⟩ := timeText_mem ht
    have htext : pyText (.time hh mi sec us) = core ++ rest := hc
    have colon : ':' ∈ pyText (.time hh mi sec us) := by rw [htext]; simp [g1]
    cases b with
    | string s => left; simp [Builtin.type, stringType, pyText]
    | integer sg w =>
      exact .inr (noint sg w _ x0 (r ++ rest) k ':' (by rw [htext, hx0]; rfl) hk colon mK.1 mK.2)
    | boolean c => exact absurd rfl (hb c)
    | enum c vs => exact absurd rfl (he c vs)
    | date s =>
      right; refine date_err fun v h => ?_
      rcases (date_ok_mem h).2.1 _ colon with ⟨k, hk⟩ | h | h
      · rw [mK.1] at hk; cases hk
      · revert h; decide
      · rw [mK.2] at h; cases h
    | time s =>
      by_cases hu : us = 0
      · left
        subst hu
        rw [htext, h0 rfl, List.append_nil]
        refine (C03_time_iff s _ _).2 ⟨core, hh, mi, sec, ?_, ht, hx.1, rfl⟩
        cases s
        · exact .inl rfl
        · exact ⟨[], [], by simp [Blank], by simp [Blank], by simp⟩
      · right; refine time_err fun v h => ?_
        rcases (time_ok_mem h).2.1 '.' (by rw [htext]; simp [h1 hu]) with ⟨k, hk⟩ | h | h
        · rw [mD.1] at hk; cases hk
        · revert h; decide
        · rw [mD.2] at h; cases h
    | dateTime s =>
      by_cases hm : '-' ∈ pyText (.time hh mi sec us)
      · -- only the part after the seconds could hold a minus, but DateTime wants it before the first colon
        right; refine dateTime_err fun v h => ?_
        by_cases hu : us = 0
        · rw [htext, h0 hu, List.append_nil] at hm
          rcases g2 _ hm with ⟨k, hk⟩ | h
          · rw [Runtime.minus_not_digit] at hk; cases hk
          · revert h; decide
        · rcases (dateTime_ok_mem h).2.2.1 '.' (by rw [htext]; simp [h1 hu]) with ⟨k, hk⟩ | h | h | h
          · rw [mD.1] at hk; cases hk
          · revert h; decide
          · revert h; decide
          · rw [mD.2] at h; cases h
      · right; exact dateTime_err fun v h => hm (dateTime_ok_mem h).1
  | datetime y m d hh mi sec us =>
    obtain ⟨dt, tt, rest, hc, hd, ht, h0, h1⟩ := hp.datetime y m d hh mi sec us hx.1 hx.2.1
    obtain ⟨g1, -, x0, r, k, hx0, hk⟩ := dateText_mem hd
    obtain ⟨q1, -, -⟩ := timeText_mem ht
    have htext : pyText (.datetime y m d hh mi sec us) = (dt ++ ' ' :: tt) ++ rest := hc
    have colon : ':' ∈ pyText (.datetime y m d hh mi sec us) := by rw [htext]; simp [q1]
    have minus : '-' ∈ pyText (.datetime y m d hh mi sec us) := by rw [htext]; simp [g1]
    cases b with
    | string s => left; simp [Builtin.type, stringType, pyText]
    | integer sg w =>
      exact .inr (noint sg w _ x0 (r ++ ' ' :: tt ++ rest) k ':' (by rw [htext, hx0]; simp) hk colon mK.1 mK.2)
    | boolean c => exact absurd rfl (hb c)
    | enum c vs => exact absurd rfl (he c vs)
    | date s =>
      right; refine date_err fun v h => ?_
      rcases (date_ok_mem h).2.1 _ colon with ⟨k, hk⟩ | h | h
      · rw [mK.1] at hk; cases hk
      · revert h; decide
      · rw [mK.2] at h; cases h
    | time s =>
      right; refine time_err fun v h => ?_
      rcases (time_ok_mem h).2.1 _ minus with ⟨k, hk⟩ | h | h
      · rw [Runtime.minus_not_digit] at hk; cases hk
      · revert h; decide
      · rw [Runtime.minus_not_space] at h; cases h
    | dateTime s =>
      by_cases hu : us = 0
      · left
        subst hu
        rw [htext, h0 rfl, List.append_nil]
        refine (C03_dateTime_iff s _ _).2 ⟨dt, tt, y, m, d, hh, mi, sec, ?_, hd, ht, hx.1, hx.2.1, rfl⟩
        cases s
        · exact .inl rfl
        · exact ⟨[], [], by simp [Blank], by simp [Blank], by simp⟩
      · right; refine dateTime_err fun v h => ?_
        rcases (dateTime_ok_mem h).2.2.1 '.' (by rw [htext]; simp [h1 hu]) with ⟨k, hk⟩ | h | h | h
        · rw [mD.1] at hk; cases hk
        · revert h; decide
        · revert h; decide
        · rw [mD.2] at h; cases h

/-- The same with Booleans and Enums. -/
theorem printed_same_all (hp : Printing) {b : Builtin} {x : PyVal} (hx : Native x) (hn : x ≠ .none) (ho : ∀ n, x ≠ .obj n)
    (hl : LiteralsHonest b x) :
    b.type.adapt (.str (pyText x)) = b.type.adapt x ∨ b.type.adapt (.str (pyText x)) = .error .adaptation := by
  induction b with
  | enum c vs ih =>
    rcases ih hl with h | h
    · left; simp only [Builtin.type, enumType, constrainedType, h]
    · right; simp only [Builtin.type, enumType, constrainedType, h, bind, Except.bind]
  | boolean c =>
    by_cases hs : ∃ s, x = .str s
    · obtain ⟨s, rfl⟩ := hs; exact .inl rfl
    have ha : (booleanType c).adapt x = .ok (.bool (truthy x)) := by
      cases x <;> first | rfl | exact absurd ⟨_, rfl⟩ hs
    obtain ⟨l1, l2⟩ := hl c rfl
    show (booleanType c).adapt (.str (pyText x)) = (booleanType c).adapt x ∨ _
    rw [ha]
    simp only [booleanType, Builtin.type]
    cases ht : truthy x with
    | true =>
      have := l1 (by rw [← truthy_iff]; simp [ht])
      split
      · exact .inl rfl
      · split
        · rename_i h; exact absurd (by simpa using h) this
        · exact .inr rfl
    | false =>
      have := l2 ((truthy_iff x).1 ht)
      split
      · rename_i h; exact absurd (by simpa using h) this
      · split
        · exact .inl rfl
        · exact .inr rfl
  | string s => exact printed_same hp hx hn ho (by intros; simp) (by intros; simp)
  | integer sg w => exact printed_same hp hx hn ho (by intros; simp) (by intros; simp)
  | date s => exact printed_same hp hx hn ho (by intros; simp) (by intros; simp)
  | time s => exact printed_same hp hx hn ho (by intros; simp) (by intros; simp)
  | dateTime s => exact printed_same hp hx hn ho (by intros; simp) (by intros; simp)

end Flatland
