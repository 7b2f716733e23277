import Verif.Proofs.Scalars
import Verif.Proofs.Temporal
/-!
Property theorems C01–C06: scalar elements (flatland/schema/scalars.py).
-/
namespace Flatland
open Spec
variable [Runtime]

/-! ## C01 – `.value` / `.u` / `.raw` in tandem -/

/-- **C01.** `set(x)` records `x` in `.raw`; on success `.value` is the adapted value and `.u` its
serialization (`''` for None) and the call returns True; on failure `.value` is None, `.u` is the text of the
input and the call returns False. The previous state `st` does not matter. -/
theorem C01_set_tandem (t : ScalarType) (ht : Disciplined t) (st : ScalarState) (x : PyVal) :
    ∃ st' ok, scalarSet t st x = (st', .ok ok) ∧ st'.raw = some x ∧
      ((∃ v, t.adapt x = .ok v ∧ ok = true ∧ st'.value = v ∧
          (v = .none → st'.u = []) ∧ (v ≠ .none → t.serialize v = .ok st'.u)) ∨
       ((∀ v, t.adapt x ≠ .ok v) ∧ ok = false ∧ st'.value = .none ∧ st'.u = rejectedText x)) := by
  unfold scalarSet
  cases h : t.adapt x with
  | error e =>
    have := ht.adapt_err x e h; subst this
    refine ⟨_, false, rfl, rfl, .inr ⟨by simp, rfl, rfl, ?_⟩⟩
    cases x <;> simp [rejectedText, pyText]
  | ok v =>
    by_cases hv : v = .none
    · subst hv
      exact ⟨_, true, rfl, rfl, .inl ⟨.none, rfl, rfl, rfl, fun _ => rfl, fun h => absurd rfl h⟩⟩
    · obtain ⟨s, hs⟩ := ht.ser_ok x v h hv
      refine ⟨⟨v, s, some x⟩, true, ?_, rfl, .inl ⟨v, rfl, rfl, rfl, fun h => absurd h hv, fun _ => hs⟩⟩
      cases v <;> simp_all

/-- **C01 (history).** Only the last `set` matters, whatever came before. -/
theorem C01_history_independent (t : ScalarType) (ht : Disciplined t) (st₁ st₂ : ScalarState)
    (h₁ h₂ : List PyVal) (x : PyVal) :
    setMany t st₁ (h₁ ++ [x]) = setMany t st₂ (h₂ ++ [x]) := by
  have key : ∀ a b : ScalarState, (scalarSet t a x).1 = (scalarSet t b x).1 := by
    intro a b
    unfold scalarSet
    cases h : t.adapt x with
    | error e => have := ht.adapt_err x e h; subst this; rfl
    | ok v =>
      by_cases hv : v = .none
      · subst hv; rfl
      · obtain ⟨s, hs⟩ := ht.ser_ok x v h hv
        cases v <;> simp_all
  simp only [setMany, List.foldl_append, List.foldl_cons, List.foldl_nil]
  exact key _ _

/-- **C01 (other exceptions).** An exception of `adapt` other than AdaptationError escapes from `set`, and value and text stay as they
were; an exception of `serialize` escapes too, with the new value in place and the old text. -/
theorem C01_other_exceptions (t : ScalarType) (st : ScalarState) (x : PyVal) :
    (∀ e, t.adapt x = .error e → e ≠ .adaptation → scalarSet t st x = (⟨st.value, st.u, some x⟩, .error e)) ∧
    (∀ v e, t.adapt x = .ok v → v ≠ .none → t.serialize v = .error e → scalarSet t st x = (⟨v, st.u, some x⟩, .error e)) := by
  refine ⟨fun e h he => ?_, fun v e h hv hs => ?_⟩
  · unfold scalarSet; rw [h]; cases e <;> first | rfl | exact absurd rfl he
  · unfold scalarSet; rw [h]; cases v <;> first | exact absurd rfl hv | (simp only [hs])

/-- Non-vacuity: a class whose `adapt` raises ValueError for every text, and one whose `serialize` does. -/
example [Runtime] : (scalarSet ⟨fun _ => .error .value, baseSerialize⟩ ⟨.int 3, ['3'], none⟩ (.str ['x'])).2 = .error .value ∧
    (scalarSet ⟨fun v => .ok v, fun _ => .error .type⟩ ⟨.int 3, ['3'], none⟩ (.str ['x'])).1.value = .str ['x'] := by
  refine ⟨?_, ?_⟩
  · rw [(C01_other_exceptions _ _ _).1 .value rfl (by decide)]
  · rw [(C01_other_exceptions _ _ _).2 (.str ['x']) .type rfl (by decide) rfl]

/-- Every built-in class is disciplined, provided `int(obj)` of foreign objects raises only what
`Number.adapt` catches. (Non-vacuity of C01.) -/
theorem C01_builtin_disciplined (b : Builtin)
    (hInt : ∀ n e, Runtime.intObj (.obj n) = .error e → e = .value ∨ e = .type ∨ e = .zeroDivision) :
    Disciplined b.type := by
  simp only [← numberCatches_iff] at hInt
  induction b with
  | string s =>
    refine ⟨?_, ?_⟩
    · intro x e h; cases x <;> simp [Builtin.type, stringType] at h
    · intro x v h hv
      cases v <;> simp [Builtin.type, stringType]
  | integer sg w =>
    refine ⟨fun x e h => integer_adapt_err hInt h, ?_⟩
    intro x v h hv
    cases v <;> simp [Builtin.type, integerType]
  | boolean c =>
    refine ⟨?_, ?_⟩
    · intro x e h
      cases x <;> simp only [Builtin.type, booleanType, reduceCtorEq] at h
      split at h
      · cases h
      · split at h
        · cases h
        · cases h; rfl
    · intro x v h hv; simp [Builtin.type, booleanType]
  | date s =>
    refine ⟨?_, ?_⟩
    · intro x e h
      cases x <;> simp only [Builtin.type, dateType, reduceCtorEq, Except.error.injEq] at h <;> try exact h.symm
      exact temporalText_err h
    · intro x v h hv; cases v <;> simp [Builtin.type, dateType]
  | time s =>
    refine ⟨?_, ?_⟩
    · intro x e h
      cases x <;> simp only [Builtin.type, timeType, reduceCtorEq, Except.error.injEq] at h <;> try exact h.symm
      exact temporalText_err h
    · intro x v h hv; cases v <;> simp [Builtin.type, timeType]
  | dateTime s =>
    refine ⟨?_, ?_⟩
    · intro x e h
      cases x <;> simp only [Builtin.type, dateTimeType, reduceCtorEq, Except.error.injEq] at h <;> try exact h.symm
      exact temporalText_err h
    · intro x v h hv; cases v <;> simp [Builtin.type, dateTimeType]
  | enum c vs ih =>
    refine ⟨?_, ?_⟩
    · intro x e h
      simp only [Builtin.type, enumType, constrainedType] at h
      cases hc : c.type.adapt x with
      | error e' =>
        rw [hc] at h; cases h; exact ih.adapt_err x e hc
      | ok w =>
        rw [hc] at h
        simp only [bind, Except.bind] at h
        split at h
        · cases h
        · cases h; rfl
    · intro x v h hv
      simp only [Builtin.type, enumType, constrainedType] at h ⊢
      cases hc : c.type.adapt x with
      | error e' => rw [hc] at h; cases h
      | ok w =>
        rw [hc] at h
        simp only [bind, Except.bind] at h
        split at h
        · cases h; exact ih.ser_ok x v hc hv
        · cases h

/-! ## C02 – text round trip -/

/-- **C02 (text input).** Setting a built-in scalar from any text and then setting it from its own `.u`
changes neither `.u` nor `.value` (nor whether adaptation succeeded). -/
theorem C02_text_roundtrip (b : Builtin) (hb : b.Consistent) (st : ScalarState) (s : PStr) :
    let r₁ := scalarSet b.type st (.str s)
    let r₂ := scalarSet b.type r₁.1 (.str r₁.1.u)
    r₂.1.u = r₁.1.u ∧ r₂.1.value = r₁.1.value ∧ r₂.2 = r₁.2 := by
  intro r₁ r₂
  rcases adapt_text b s with h | ⟨v, h, hv, he⟩
  · have h1 : r₁ = _ := scalarSet_text_err (st := st) h
    have h2 : r₂ = scalarSet b.type r₁.1 (.str r₁.1.u) := rfl
    rw [h1] at h2
    rw [scalarSet_text_err h] at h2
    rw [h1, h2]; simp
  · obtain ⟨u, hu⟩ := builtin_serialize_ok b v
    have h1 : r₁ = _ := scalarSet_ok (st := st) h hv hu
    have h2 : r₂ = scalarSet b.type r₁.1 (.str r₁.1.u) := rfl
    rw [h1] at h2
    simp only at h2
    rw [scalarSet_ok ((readapt hb (x := .str s) trivial h hv hu).1 he) hv hu] at h2
    rw [h1, h2]; simp

/-- **C02 (native input).** After a successful `set` of any native value giving a non-None value,
setting the element from its own `.u` keeps `.u`, and keeps `.value` whenever the text form is exact for it
(i.e. no sub-second part, no datetime inside a Date). -/
theorem C02_native_roundtrip (b : Builtin) (hb : b.Consistent) (st : ScalarState) (x : PyVal) (hx : Native x)
    (hok : (scalarSet b.type st x).2 = .ok true) (hne : (scalarSet b.type st x).1.value ≠ .none) :
    let r₁ := scalarSet b.type st x
    let r₂ := scalarSet b.type r₁.1 (.str r₁.1.u)
    r₂.1.u = r₁.1.u ∧ (b.Exact r₁.1.value → r₂.1.value = r₁.1.value) := by
  intro r₁ r₂
  cases h : b.type.adapt x with
  | error e =>
    exfalso
    unfold scalarSet at hok; rw [h] at hok
    cases e <;> simp at hok
  | ok v =>
    by_cases hv : v = .none
    · subst hv; exfalso; unfold scalarSet at hne; rw [h] at hne; exact hne rfl
    · obtain ⟨u, hu⟩ := builtin_serialize_ok b v
      have h1 : r₁ = _ := scalarSet_ok (st := st) h hv hu
      have h2 : r₂ = scalarSet b.type r₁.1 (.str r₁.1.u) := rfl
      rw [h1] at h2
      simp only at h2
      obtain ⟨k1, k2⟩ := readapt hb hx h hv hu
      constructor
      · rw [h1]
        rcases k2 with k | ⟨w, hw, k, ks⟩
        · rw [scalarSet_text_err k] at h2; rw [h2]
        · rw [scalarSet_ok k hw ks] at h2; rw [h2]
      · intro he
        rw [h1] at he ⊢
        rw [scalarSet_ok (k1 he) hv hu] at h2
        rw [h2]

/-- **C02 (None).** After `set(None)` on a non-Boolean built-in, `.u` is `''` and stays so; the value stays
None except that it becomes the empty text on a String-based element. -/
theorem C02_none_roundtrip (b : Builtin) (hbase : ∀ c, b.base ≠ .boolean c) (st : ScalarState) :
    let r₁ := scalarSet b.type st .none
    let r₂ := scalarSet b.type r₁.1 (.str r₁.1.u)
    r₁.1.value = .none ∧ r₁.1.u = [] ∧ r₂.1.u = [] ∧
      (r₂.1.value = .none ∨ (r₂.1.value = .str [] ∧ ∃ s, b.base = .string s)) := by
  intro r₁ r₂
  have hn : b.type.adapt .none = .ok .none ∨ b.type.adapt .none = .error .adaptation := by
    clear r₁ r₂
    induction b with
    | boolean c => exact absurd rfl (hbase c)
    | enum c vs ih =>
      simp only [Builtin.type, enumType, constrainedType]
      rcases ih hbase with h | h <;> rw [h] <;> simp [bind, Except.bind]
    | _ => exact .inl rfl
  have he : b.type.adapt (.str []) = .error .adaptation ∨
      (b.type.adapt (.str []) = .ok (.str []) ∧ b.type.serialize (.str []) = .ok [] ∧ ∃ s, b.base = .string s) := by
    clear r₁ r₂ hn
    induction b with
    | boolean c => exact absurd rfl (hbase c)
    | enum c vs ih =>
      rcases ih hbase with h | ⟨h1, h2, h3⟩
      · left; simp only [Builtin.type, enumType, constrainedType, h, bind, Except.bind]
      · simp only [Builtin.type, enumType, constrainedType, h1, bind, Except.bind]
        cases enumValid vs (.str [])
        · left; rfl
        · exact .inr ⟨rfl, h2, h3⟩
    | string s =>
      have hst : strip ([] : PStr) = [] := rfl
      right; refine ⟨?_, ?_, s, rfl⟩ <;> simp [Builtin.type, stringType, pyText, hst]
    | integer sg w =>
      have hst : strip ([] : PStr) = [] := rfl
      left; simp [Builtin.type, integerType, intOf, hst, pyInt, parseDigits, numberCatches]
    | date s =>
      have hst : strip ([] : PStr) = [] := rfl
      left; cases s <;> simp [Builtin.type, dateType, temporalText, hst, dateRx, rxMatch]
    | time s =>
      have hst : strip ([] : PStr) = [] := rfl
      left; cases s <;> simp [Builtin.type, timeType, temporalText, hst, timeRx, rxMatch]
    | dateTime s =>
      have hst : strip ([] : PStr) = [] := rfl
      left; cases s <;> simp [Builtin.type, dateTimeType, temporalText, hst, dateTimeRx, rxMatch]
  have h1 : r₁.1 = ⟨.none, [], some .none⟩ := by
    show (scalarSet b.type st .none).1 = _
    unfold scalarSet
    rcases hn with h | h <;> rw [h]
  have h2 : r₂ = scalarSet b.type r₁.1 (.str r₁.1.u) := rfl
  rw [h1] at h2
  rw [h1]
  refine ⟨rfl, rfl, ?_⟩
  simp only at h2
  rcases he with h | ⟨h, hs, hb⟩
  · rw [scalarSet_text_err h] at h2; rw [h2]; exact ⟨rfl, .inl rfl⟩
  · rw [scalarSet_ok h (by simp) hs] at h2; rw [h2]; exact ⟨rfl, .inr ⟨rfl, hb⟩⟩

/-- Non-vacuity: default Boolean, padded unsigned Integer, Enum of dates are consistent configurations. -/
example : (Builtin.boolean {}).Consistent := ⟨by decide, by decide⟩
example : (Builtin.enum (.date true) [.date 2024 2 29]).Consistent := trivial

/-- Disagreement (recorded in DESIGN.md): sub-second precision is silently lost, so the value round trip is
false for DateTime in general. -/
theorem C02_not_exact_datetime :
    let t := (Builtin.dateTime true).type
    let r₁ := scalarSet t .fresh (.datetime 2009 10 10 12 0 0 5)
    (scalarSet t r₁.1 (.str r₁.1.u)).1.value ≠ r₁.1.value := by
  intro t r₁
  have hd : RealDate 2009 10 10 := (validDate_iff _ _ _).1 (by decide)
  have ht : RealTime 12 0 0 := (validTime_iff _ _ _).1 (by decide)
  have h1 : r₁ = (⟨.datetime 2009 10 10 12 0 0 5, fmtDate 2009 10 10 ++ ' ' :: fmtTime 12 0 0, _⟩, _) :=
    scalarSet_ok (t := t) (st := .fresh) (x := .datetime 2009 10 10 12 0 0 5) rfl (by simp) rfl
  rw [h1]
  simp only
  rw [scalarSet_ok (t := t) (dateTime_adapt_fmt (b := true) hd ht) (by simp) rfl]
  simp



/-! ## C03 – calendar safety -/

/-- **C03 (Date).** A text is accepted exactly when, apart from permitted surroundings, it is `YYYY-MM-DD` for a
real date, and then the value is that date. -/
theorem C03_date_iff (b : Bool) (s : PStr) (v : PyVal) :
    (dateType b).adapt (.str s) = .ok v ↔
      ∃ core y m d, Around b s core ∧ DateText core y m d ∧ RealDate y m d ∧ v = .date y m d := by
  constructor
  · intro h
    simp only [dateType, temporalText] at h
    split at h
    · cases h
    · rename_i ns hrx
      obtain ⟨core, y, m, d, rfl, ht, hs⟩ := rx_date_sound hrx
      split at h
      · cases h
      · rename_i w hw
        cases h
        simp only [mkDate] at hw
        split at hw
        · rename_i hv; cases hw
          exact ⟨core, y, m, d, (around_iff b (strip_dateText ht) s).1 hs, ht,
            (validDate_iff _ _ _).1 hv, rfl⟩
        · cases hw
  · rintro ⟨core, y, m, d, ha, ht, hr, rfl⟩
    have hst := strip_dateText ht
    obtain ⟨Y, M, D, hY, hM, hD, rfl⟩ := ht
    simp only [dateType, temporalText, rx_complete_around (rx_date_complete hY hM hD) hst ha]
    simp [mkDate, (validDate_iff y m d).2 hr]

/-- **C03 (Time).** Likewise for `HH:MM:SS`. -/
theorem C03_time_iff (b : Bool) (s : PStr) (v : PyVal) :
    (timeType b).adapt (.str s) = .ok v ↔
      ∃ core h mi sec, Around b s core ∧ TimeText core h mi sec ∧ RealTime h mi sec ∧ v = .time h mi sec 0 := by
  constructor
  · intro h
    simp only [timeType, temporalText] at h
    split at h
    · cases h
    · rename_i ns hrx
      obtain ⟨core, y, m, d, rfl, ht, hs⟩ := rx_time_sound hrx
      split at h
      · cases h
      · rename_i w hw
        cases h
        simp only [mkTime] at hw
        split at hw
        · rename_i hv; cases hw
          exact ⟨core, y, m, d, (around_iff b (strip_timeText ht) s).1 hs, ht,
            (validTime_iff _ _ _).1 hv, rfl⟩
        · cases hw
  · rintro ⟨core, y, m, d, ha, ht, hr, rfl⟩
    have hst := strip_timeText ht
    obtain ⟨Y, M, D, hY, hM, hD, rfl⟩ := ht
    simp only [timeType, temporalText, rx_complete_around (rx_time_complete hY hM hD) hst ha]
    simp [mkTime, (validTime_iff y m d).2 hr]

/-- **C03 (DateTime).** Likewise for `YYYY-MM-DD HH:MM:SS`. -/
theorem C03_dateTime_iff (b : Bool) (s : PStr) (v : PyVal) :
    (dateTimeType b).adapt (.str s) = .ok v ↔
      ∃ dt tt y m d h mi sec, Around b s (dt ++ ' ' :: tt) ∧ DateText dt y m d ∧ TimeText tt h mi sec ∧
        RealDate y m d ∧ RealTime h mi sec ∧ v = .datetime y m d h mi sec 0 := by
  constructor
  · intro h
    simp only [dateTimeType, temporalText] at h
    split at h
    · cases h
    · rename_i ns hrx
      obtain ⟨dt, tt, y, m, d, h', mi, sec, rfl, hd, ht, hs⟩ := rx_dateTime_sound hrx
      split at h
      · cases h
      · rename_i w hw
        cases h
        simp only [mkDateTime] at hw
        split at hw
        · rename_i hv; cases hw
          rw [Bool.and_eq_true] at hv
          exact ⟨dt, tt, y, m, d, h', mi, sec,
            (around_iff b (strip_dateTimeText hd ht) s).1 hs, hd, ht,
            (validDate_iff _ _ _).1 hv.1, (validTime_iff _ _ _).1 hv.2, rfl⟩
        · cases hw
  · rintro ⟨dt, tt, y, m, d, h', mi, sec, ha, hd, ht, hr, hr', rfl⟩
    have hst := strip_dateTimeText hd ht
    obtain ⟨Y, M, D, hY, hM, hD, rfl⟩ := hd
    obtain ⟨H, I, S, hH, hI, hS, rfl⟩ := ht
    simp only [dateTimeType, temporalText,
      rx_complete_around (rx_dateTime_complete hY hM hD hH hI hS) hst ha]
    simp [mkDateTime, (validDate_iff y m d).2 hr, (validTime_iff h' mi sec).2 hr']

/-- **C03 (own form).** Every real date / time is accepted in its own serialized form and read back exactly. -/
theorem C03_own_form (b : Bool) (y m d h mi s : Nat) (hd : RealDate y m d) (ht : RealTime h mi s) :
    (∃ u, (dateType b).serialize (.date y m d) = .ok u ∧ (dateType b).adapt (.str u) = .ok (.date y m d)) ∧
    (∃ u, (timeType b).serialize (.time h mi s 0) = .ok u ∧ (timeType b).adapt (.str u) = .ok (.time h mi s 0)) ∧
    (∃ u, (dateTimeType b).serialize (.datetime y m d h mi s 0) = .ok u ∧
      (dateTimeType b).adapt (.str u) = .ok (.datetime y m d h mi s 0)) :=
  ⟨⟨_, rfl, date_adapt_fmt hd⟩, ⟨_, rfl, time_adapt_fmt ht⟩, ⟨_, rfl, dateTime_adapt_fmt hd ht⟩⟩

omit [Runtime] in
/-- Non-vacuity: the leap day of 2000 is real, that of 1900 and 2023 are not. -/
example : RealDate 2000 2 29 ∧ ¬ RealDate 1900 2 29 ∧ ¬ RealDate 2023 2 29 ∧ RealTime 23 59 59 := by
  refine ⟨(validDate_iff _ _ _).1 (by decide), ?_, ?_, by unfold RealTime; omega⟩
  · intro h; exact absurd ((validDate_iff _ _ _).2 h) (by decide)
  · intro h; exact absurd ((validDate_iff _ _ _).2 h) (by decide)

/-! ## C04 – Constrained and Enum domains -/

/-- **C04 (Constrained).** After any history of `set` calls (including ones that raise), the value is None or satisfies the
predicate. -/
theorem C04_constrained_invariant (child : ScalarType) (ok : PyVal → Bool) (history : List PyVal) :
    let st := setMany (constrainedType child ok) .fresh history
    st.value = .none ∨ ok st.value = true := by
  have step : ∀ (st : ScalarState) x, (st.value = .none ∨ ok st.value = true) →
      ((scalarSet (constrainedType child ok) st x).1.value = .none ∨
        ok (scalarSet (constrainedType child ok) st x).1.value = true) := by
    intro st x hst
    rw [scalarSet_value]
    cases h : (constrainedType child ok).adapt x with
    | error e => cases e <;> first | exact hst | exact .inl rfl
    | ok v =>
      have hv : ok v = true := by
        simp only [constrainedType] at h
        cases hc : child.adapt x with
        | error e => rw [hc] at h; cases h
        | ok w =>
          rw [hc] at h; simp only [bind, Except.bind] at h
          split at h
          · cases h; assumption
          · cases h
      exact .inr hv
  intro st
  show st.value = .none ∨ ok st.value = true
  have : ∀ (hist : List PyVal) (s : ScalarState), (s.value = .none ∨ ok s.value = true) →
      ((setMany (constrainedType child ok) s hist).value = .none ∨
        ok (setMany (constrainedType child ok) s hist).value = true) := by
    intro hist
    induction hist with
    | nil => intro s hs; exact hs
    | cons x xs ih => intro s hs; exact ih _ (step s x hs)
  exact this history .fresh (.inl rfl)

/-- **C04 (Enum).** The value of an Enum is None or equal (Python `==`) to one of `valid_values`, whatever was set. -/
theorem C04_enum_invariant (child : ScalarType) (values : List PyVal) (history : List PyVal) :
    let st := setMany (enumType child values) .fresh history
    st.value = .none ∨ ∃ v ∈ values, pyEq st.value v = true := by
  have := C04_constrained_invariant child (enumValid values) history
  simpa [enumType, enumValid] using this

/-- **C04 (return value).** `set` reports success only when the adapted input is one of `valid_values`. -/
theorem C04_enum_success (child : ScalarType) (values : List PyVal) (st : ScalarState) (x : PyVal)
    (h : (scalarSet (enumType child values) st x).2 = .ok true) :
    ∃ w, child.adapt x = .ok w ∧ (scalarSet (enumType child values) st x).1.value = w ∧ ∃ v ∈ values, pyEq w v = true := by
  rw [scalarSet_value]
  unfold scalarSet at h
  cases hc : child.adapt x with
  | error e =>
    simp only [enumType, constrainedType, hc, bind, Except.bind] at h
    cases e <;> simp at h
  | ok w =>
    simp only [enumType, constrainedType, hc, bind, Except.bind] at h ⊢
    by_cases hv : enumValid values w = true
    · refine ⟨w, rfl, ?_, by simpa [enumValid] using hv⟩
      rw [if_pos hv]
    · simp [hv] at h

/-- **C04 (return value, Constrained).** `set` reports success exactly when the input adapts as the child type, the predicate accepts what it
adapts to and that can be serialized; that is then the value. -/
theorem C04_constrained_success (child : ScalarType) (ok : PyVal → Bool) (st : ScalarState) (x : PyVal) :
    (scalarSet (constrainedType child ok) st x).2 = .ok true ↔
      ∃ w, child.adapt x = .ok w ∧ ok w = true ∧ (w ≠ .none → ∃ u, child.serialize w = .ok u) ∧
        (scalarSet (constrainedType child ok) st x).1.value = w := by
  rw [scalarSet_value]
  unfold scalarSet
  cases hc : child.adapt x with
  | error e =>
    simp only [constrainedType, hc, bind, Except.bind]
    cases e <;> simp
  | ok w =>
    simp only [constrainedType, hc, bind, Except.bind]
    by_cases hv : ok w = true
    · rw [if_pos hv]
      cases w <;> simp only <;> first
        | (constructor
           · intro h
             refine ⟨_, rfl, hv, fun _ => ?_, rfl⟩
             split at h
             · exact ⟨_, by assumption⟩
             · cases h
           · rintro ⟨w', h, -, hs, -⟩
             cases h
             obtain ⟨u, hu⟩ := hs (by simp)
             rw [hu])
        | simp [hv]
    · simp [hv]

/-- Non-vacuity: an Integer Enum of 1, 2, 3 accepts `' 2 '` and rejects `'5'` (ASCII runtime). -/
example : letI := Runtime.ascii
    let t := enumType (integerType true 0) [.int 1, .int 2, .int 3]
    (scalarSet t .fresh (.str " 2 ".toList)).2 = .ok true ∧ (scalarSet t .fresh (.str "5".toList)).2 = .ok false := by
  decide

/-! ## C05 – integers -/

/-- **C05.** `Integer.adapt(text)` yields a value exactly for an (optionally signed, white-space padded) decimal numeral, the
number it denotes, which with `signed=False` must not be negative; every other text is rejected with AdaptationError. -/
theorem C05_integer_text_iff (signed : Bool) (w : Nat) (s : PStr) (v : PyVal) :
    (integerType signed w).adapt (.str s) = .ok v ↔
      ∃ i, IntText s i ∧ (signed = false → 0 ≤ i) ∧ v = .int i := by
  simp only [integerType, intOf, pyInt_strip]
  constructor
  · intro h
    cases hp : pyInt s with
    | none => simp [hp] at h
    | some i =>
      simp only [hp] at h
      split at h
      · cases h
      · rename_i hn
        cases h
        exact ⟨i, (pyInt_iff s i).1 hp, fun hs => by simp [hs] at hn; omega, rfl⟩
  · rintro ⟨i, hi, hs, rfl⟩
    rw [(pyInt_iff s i).2 hi]
    simp only []
    cases signed
    · have := hs rfl
      simp; omega
    · simp

/-- **C05 (set of a text).** Whatever the element held before: a text that denotes an integer in range is taken, any other text is
refused with False and no value; `set` of a text never raises. -/
theorem C05_set_text (signed : Bool) (w : Nat) (st : ScalarState) (s : PStr) :
    (∀ i, IntText s i → (signed = false → 0 ≤ i) →
      (scalarSet (integerType signed w) st (.str s)).2 = .ok true ∧ (scalarSet (integerType signed w) st (.str s)).1.value = .int i) ∧
    ((¬ ∃ i, IntText s i ∧ (signed = false → 0 ≤ i)) →
      (scalarSet (integerType signed w) st (.str s)).2 = .ok false ∧ (scalarSet (integerType signed w) st (.str s)).1.value = .none ∧
      (scalarSet (integerType signed w) st (.str s)).1.u = s) := by
  refine ⟨fun i h1 h2 => ?_, fun hn => ?_⟩
  · have ha := (C05_integer_text_iff signed w s (.int i)).2 ⟨i, h1, h2, rfl⟩
    unfold scalarSet
    rw [ha]
    simp [integerType]
  · have ha : (integerType signed w).adapt (.str s) = .error .adaptation := by
      cases ha : (integerType signed w).adapt (.str s) with
      | ok v =>
        obtain ⟨i, h1, h2, _⟩ := (C05_integer_text_iff signed w s v).1 ha
        exact absurd ⟨i, h1, h2⟩ hn
      | error e =>
        simp only [integerType, intOf, pyInt_strip] at ha
        cases hp : pyInt s with
        | none => simp [hp, numberCatches] at ha; rw [← ha]
        | some i =>
          simp only [hp] at ha
          split at ha
          · cases ha; rfl
          · cases ha
    unfold scalarSet
    rw [ha]
    simp

/-- **C05 (unsigned invariant).** With `signed=False` no history of sets leaves a negative number. -/
theorem C05_unsigned_never_negative (w : Nat) (history : List PyVal) (i : Int)
    (h : (setMany (integerType false w) .fresh history).value = .int i) : 0 ≤ i := by
  have hinv : ∀ (hist : List PyVal) (s : ScalarState), (∀ j, s.value = .int j → 0 ≤ j) →
      ∀ j, (setMany (integerType false w) s hist).value = .int j → 0 ≤ j := by
    intro hist
    induction hist with
    | nil => intro s hs; exact hs
    | cons x xs ih =>
      intro s hs
      refine ih _ ?_
      intro j
      rw [scalarSet_value]
      cases ha : (integerType false w).adapt x with
      | error e => cases e <;> first | exact hs j | (intro h; cases h)
      | ok v =>
        have hv : ∀ k, v = .int k → 0 ≤ k := by
          intro k hk; subst hk
          cases x <;> simp only [integerType] at ha
          case none => cases ha
          all_goals
            split at ha
            · cases ha
            · split at ha
              · cases ha
              · rename_i hn
                cases ha; simp at hn; omega
        exact hv j
  exact hinv history .fresh (by intro j hj; cases hj) i h

/-- Non-vacuity: `' -012 '` denotes -12 and is accepted iff signed (ASCII runtime). -/
example : letI := Runtime.ascii
    (match (integerType true 0).adapt (.str " -012 ".toList) with | .ok (.int (-12)) => true | _ => false) = true ∧
    (match (integerType false 0).adapt (.str " -012 ".toList) with | .error .adaptation => true | _ => false) = true := by
  decide

/-! ## C06 – Boolean -/

/-- **C06.** Text is True exactly for the true literal/synonyms, False exactly for the false literal/synonyms not also true,
and otherwise rejected; the literal of either truth value reads back as that value. -/
theorem C06_boolean_text (c : BoolCfg) (s : PStr) :
    ((booleanType c).adapt (.str s) = .ok (.bool true) ↔ s = c.true_ ∨ s ∈ c.trueSyn) ∧
    ((booleanType c).adapt (.str s) = .ok (.bool false) ↔
      ¬ (s = c.true_ ∨ s ∈ c.trueSyn) ∧ (s = c.false_ ∨ s ∈ c.falseSyn)) ∧
    ((booleanType c).adapt (.str s) = .error .adaptation ↔
      ¬ (s = c.true_ ∨ s ∈ c.trueSyn) ∧ ¬ (s = c.false_ ∨ s ∈ c.falseSyn)) := by
  simp only [booleanType]
  have e1 : ((s == c.true_ || c.trueSyn.contains s) = true) ↔ (s = c.true_ ∨ s ∈ c.trueSyn) := by simp
  have e2 : ((s == c.false_ || c.falseSyn.contains s) = true) ↔ (s = c.false_ ∨ s ∈ c.falseSyn) := by simp
  by_cases h1 : s = c.true_ ∨ s ∈ c.trueSyn
  · simp [h1]
  · by_cases h2 : s = c.false_ ∨ s ∈ c.falseSyn
    · have : ¬ ((s == c.true_ || c.trueSyn.contains s) = true) := fun h => h1 (e1.1 h)
      simp [h1, h2]
    · have : ¬ ((s == c.true_ || c.trueSyn.contains s) = true) := fun h => h1 (e1.1 h)
      have : ¬ ((s == c.false_ || c.falseSyn.contains s) = true) := fun h => h2 (e2.1 h)
      simp [*]

/-- **C06 (native).** Non-text input is converted by truth value and never rejected. -/
theorem C06_boolean_native (c : BoolCfg) (v : PyVal) (h : ∀ s, v ≠ .str s) :
    ∃ b, (booleanType c).adapt v = .ok (.bool b) ∧ (b = false ↔ FalseValue v) := by
  refine ⟨truthy v, ?_, truthy_iff v⟩
  cases v <;> simp [booleanType]
  exact absurd rfl (h _)

/-- **C06 (literals).** The serialization of a truth value reads back as that value iff the false literal is not a
true synonym (for False), always (for True). -/
theorem C06_literal_readback (c : BoolCfg) :
    (∃ u, (booleanType c).serialize (.bool true) = .ok u ∧ (booleanType c).adapt (.str u) = .ok (.bool true)) ∧
    ((∃ u, (booleanType c).serialize (.bool false) = .ok u ∧ (booleanType c).adapt (.str u) = .ok (.bool false)) ↔
      c.false_ ≠ c.true_ ∧ c.false_ ∉ c.trueSyn) := by
  constructor
  · exact ⟨c.true_, rfl, ((C06_boolean_text c c.true_).1).2 (.inl rfl)⟩
  · constructor
    · rintro ⟨u, hu, ha⟩
      cases hu
      have := ((C06_boolean_text c c.false_).2.1).1 ha
      exact ⟨fun h => this.1 (.inl h), fun h => this.1 (.inr h)⟩
    · rintro ⟨h1, h2⟩
      refine ⟨c.false_, rfl, ((C06_boolean_text c c.false_).2.1).2 ⟨?_, .inl rfl⟩⟩
      rintro (h | h)
      · exact h1 h
      · exact h2 h

end Flatland
