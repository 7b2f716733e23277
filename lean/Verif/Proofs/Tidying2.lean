import Verif.Proofs.Tidying
/-! The validators of one element, and the whole form. -/
namespace Flatland
open Flatland.Spec

variable [Runtime]

omit [Runtime] in
theorem formNow_change (e : Elem) (d : Pos → Cell) (p : Pos) (s : Option ScalarState) : formNow e (withChange d p s) = changedAt (formNow e d) p s := by
  cases s with
  | none => rfl
  | some s =>
    unfold formNow changedAt withChange
    simp only
    rw [withStates_twice]
    apply withStates_congr
    intro q n st hq
    by_cases hqp : q = p
    · simp [hqp]
    · simp only [hqp, if_false]
      exact (stateAt_withStates e (fun q => (d q).state) hq).symm

omit [Runtime] in
/-- the form does not depend on the messages -/
theorem formNow_errors (e : Elem) (d : Pos → Cell) (p : Pos) (ms : List PStr) :
    formNow e (fun q => if q = p then { d p with errors := ms } else d q) = formNow e d := by
  unfold formNow
  apply withStates_congr
  intro q n st hq
  by_cases hqp : q = p
  · simp [hqp]
  · simp [hqp]

omit [Runtime] in
theorem withChange_other (d : Pos → Cell) {p q : Pos} (s : Option ScalarState) (h : q ≠ p) : withChange d p s q = d q := by
  cases s <;> simp [withChange, h]

/-- the data after one validator, and its answer [proof device, no code] -/
def actStep (e : Elem) (p : Pos) (r : ActRule) (d : Pos → Cell) : Cell × Except PyErr Bool :=
  let a := r.act (formNow e d) p
  let d' := withChange d p a.1
  let out := answerNotes (r.noter (formNow e d') p) (d' p).errors a.2
  ({ d' p with errors := out.1 }, out.2)

/-- the data after a list of validators [proof device, no code] -/
def actLoop (e : Elem) (p : Pos) : List ActRule → (Pos → Cell) → Cell × Except PyErr Verdict
  | [], d => (d p, .ok .yes)
  | r :: rs, d => match (actStep e p r d).2 with
    | .error er => ((actStep e p r d).1, .error er)
    | .ok false => ((actStep e p r d).1, .ok .no)
    | .ok true => actLoop e p rs (putAt d p (actStep e p r d).1)

theorem runAct_step (e : Elem) (p : Pos) (r : ActRule) (st : VState Pos (Pos → Cell)) :
    runAct e p r st = ({ st with data := putAt st.data p (actStep e p r st.data).1 },
      (actStep e p r st.data).2.map fun b => if b then .truthy else .falseInt) := by
  unfold runAct actStep
  simp only [Prod.mk.injEq, and_true]
  congr 1
  funext q
  unfold putAt
  by_cases hq : q = p
  · simp [hq]
  · simp only [hq, if_false]
    exact withChange_other st.data _ hq

omit [Runtime] in
theorem putAt_twice {I M : Type} [DecidableEq I] (d : I → M) (i : I) (a b : M) : putAt (putAt d i a) i b = putAt d i b := by
  funext j; unfold putAt; by_cases h : j = i <;> simp [h]

theorem actLoop_run (e : Elem) (p : Pos) (rs : List ActRule) (st : VState Pos (Pos → Cell)) (k : Nat) :
    (validatorLoop st k (rs.map (runAct e p))).1 = { st with data := putAt st.data p (actLoop e p rs st.data).1 } ∧
    (validatorLoop st k (rs.map (runAct e p))).2.2 = (actLoop e p rs st.data).2 := by
  induction rs generalizing st k with
  | nil => simp [validatorLoop, actLoop, putAt_self]
  | cons r rs ih =>
    rw [List.map_cons, validatorLoop, runAct_step, actLoop]
    cases h : (actStep e p r st.data).2 with
    | error er => simp [Except.map]
    | ok b =>
      cases b with
      | false => simp [Except.map]
      | true =>
        simp only [Except.map, if_true]
        obtain ⟨g1, g2⟩ := ih { st with data := putAt st.data p (actStep e p r st.data).1 } (k + 1)
        exact ⟨by rw [g1]; simp [putAt_twice], g2⟩

theorem runCheck_note {n : Noter} {ms ms' : List PStr} {key : PStr} {b : Bool} (h : runCheck n ms (.ok (some key)) = (ms', .ok b)) :
    b = false ∧ ∃ text, MessageIs n key text ∧ ms' = plusMessage ms text := by
  have hg : MsgAttr.none.truth = false := rfl
  rw [runCheck, noteMessage, if_neg (by simp [hg])] at h
  cases hm : n.attr key with
  | error er => rw [hm] at h; simp at h
  | ok m =>
    rw [hm] at h
    simp only at h
    split at h
    · rename_i ht
      cases ht' : expandMessage n.env m with
      | error er => rw [ht'] at h; simp at h
      | ok t =>
        rw [ht'] at h
        simp only [Prod.mk.injEq, Except.ok.injEq] at h
        exact ⟨h.2.symm, some t, ⟨m, hm, (msg_says m).1 ht, ht'⟩, h.1.symm⟩
    · rename_i ht
      simp only [Prod.mk.injEq, Except.ok.injEq] at h
      exact ⟨h.2.symm, .none, ⟨m, hm, (msg_silent m).1 (by simpa using ht)⟩, h.1.symm⟩

omit [Runtime] in
theorem withChange_errors (d : Pos → Cell) (p : Pos) (s : Option ScalarState) : (withChange d p s p).errors = (d p).errors := by
  cases s <;> simp [withChange]

theorem actStep_form (e : Elem) (p : Pos) (r : ActRule) (d : Pos → Cell) :
    formNow e (putAt d p (actStep e p r d).1) = changedAt (formNow e d) p (r.act (formNow e d) p).1 := by
  rw [← formNow_change]
  unfold formNow
  apply withStates_congr
  intro q n st hq
  unfold putAt actStep
  by_cases hqp : q = p
  · subst hqp; simp; rfl
  · simp only [hqp, if_false]
    rw [withChange_other d _ hqp]

/-- what one validator does -/
theorem actStep_ok {e : Elem} {p : Pos} {r : ActRule} {d : Pos → Cell} {b : Bool} (h : (actStep e p r d).2 = .ok b) :
    ∃ s a, r.act (formNow e d) p = (s, .ok a) ∧ formNow e (putAt d p (actStep e p r d).1) = changedAt (formNow e d) p s ∧
      ((a = .yes ∧ b = true ∧ (actStep e p r d).1.errors = (d p).errors) ∨ (a = .no ∧ b = false ∧ (actStep e p r d).1.errors = (d p).errors) ∨
        ∃ key text, a = .note key ∧ b = false ∧ MessageIs (r.noter (changedAt (formNow e d) p s) p) key text ∧
          (actStep e p r d).1.errors = plusMessage (d p).errors text) := by
  have hf := actStep_form e p r d
  cases ha : r.act (formNow e d) p with
  | mk s res =>
    rw [ha] at hf
    simp only at hf
    have he : (actStep e p r d).1.errors = (answerNotes (r.noter (changedAt (formNow e d) p s) p) (d p).errors res).1 := by
      unfold actStep; simp only [ha]; rw [← formNow_change, withChange_errors]
    have hr : (actStep e p r d).2 = (answerNotes (r.noter (changedAt (formNow e d) p s) p) (d p).errors res).2 := by
      unfold actStep; simp only [ha]; rw [← formNow_change, withChange_errors]
    cases res with
    | error er => rw [hr] at h; simp [answerNotes] at h
    | ok a =>
      refine ⟨s, a, rfl, hf, ?_⟩
      cases a with
      | yes =>
        rw [hr] at h; simp only [answerNotes, Except.ok.injEq] at h he
        exact .inl ⟨rfl, h.symm, he⟩
      | no =>
        rw [hr] at h; simp only [answerNotes, Except.ok.injEq] at h he
        exact .inr (.inl ⟨rfl, h.symm, he⟩)
      | note key =>
        simp only [answerNotes] at hr he
        rw [h] at hr
        obtain ⟨hb, text, ht, hms⟩ := runCheck_note (n := r.noter (changedAt (formNow e d) p s) p) (ms := (d p).errors) (key := key) (Prod.ext rfl hr.symm)
        exact .inr (.inr ⟨key, text, rfl, hb, ht, he.trans hms⟩)

theorem actLoop_inTurn {e : Elem} {p : Pos} {rs : List ActRule} {d : Pos → Cell} {v : Verdict} (h : (actLoop e p rs d).2 = .ok v) :
    ∃ ok text, InTurn p (formNow e d) rs (formNow e (putAt d p (actLoop e p rs d).1)) ok text ∧ v = (if ok then .yes else .no) ∧
      (actLoop e p rs d).1.errors = plusMessage (d p).errors text := by
  induction rs generalizing d with
  | nil =>
    simp only [actLoop, Except.ok.injEq] at h
    refine ⟨true, .none, ?_, h.symm, rfl⟩
    rw [actLoop, putAt_self]
    exact .passed
  | cons r rs ih =>
    rw [actLoop] at h ⊢
    cases hs : (actStep e p r d).2 with
    | error er => rw [hs] at h; simp at h
    | ok b =>
      obtain ⟨s, a, ha, hf, hcase⟩ := actStep_ok hs
      rw [hs] at h
      cases b with
      | true =>
        simp only at h ⊢
        rcases hcase with ⟨rfl, _, he⟩ | ⟨_, hb, _⟩ | ⟨_, _, _, hb, _⟩
        · obtain ⟨ok, text, h1, h2, h3⟩ := ih h
          rw [putAt_twice, hf] at h1
          rw [putAt_same, he] at h3
          exact ⟨ok, text, .next ha h1, h2, h3⟩
        · cases hb
        · cases hb
      | false =>
        simp only [Except.ok.injEq] at h ⊢
        rcases hcase with ⟨_, hb, _⟩ | ⟨rfl, _, he⟩ | ⟨key, text, rfl, _, hm, he⟩
        · cases hb
        · exact ⟨false, .none, by rw [hf]; exact .refused ha, h.symm, he⟩
        · exact ⟨false, text, by rw [hf]; exact .noted ha hm, h.symm, he⟩

/-- the data after the validators `rs` of an element [proof device, no code] -/
def actList (e : Elem) (p : Pos) (c : ActRules) (rs : List ActRule) (d : Pos → Cell) : Cell × Except PyErr Verdict :=
  let empty := elemIsEmpty c.field ((elemAt (formNow e d) p).getD .absent)
  if empty && c.optional then (d p, .ok .yes)
  else if rs.isEmpty then (d p, .ok (if empty then .no else .yes))
  else actLoop e p rs d

theorem validateElement_act (e : Elem) (p : Pos) (c : ActRules) (rs : List ActRule) (st : VState Pos (Pos → Cell)) :
    (validateElement c.optional (elemIsEmpty c.field ((elemAt (formNow e st.data) p).getD .absent)) (rs.map (runAct e p)) st).1 =
      { st with data := putAt st.data p (actList e p c rs st.data).1 } ∧
    (validateElement c.optional (elemIsEmpty c.field ((elemAt (formNow e st.data) p).getD .absent)) (rs.map (runAct e p)) st).2.2 =
      (actList e p c rs st.data).2 := by
  unfold validateElement actList
  simp only
  generalize elemIsEmpty c.field ((elemAt (formNow e st.data) p).getD .absent) = b
  by_cases hx : (b && c.optional) = true
  · simp only [hx, if_true, putAt_self, and_self]
  · simp only [hx, Bool.false_eq_true, if_false]
    cases rs with
    | nil => cases b <;> simp [putAt_self]
    | cons r rs =>
      have := actLoop_run e p (r :: rs) st 0
      simp only [List.map_cons] at this ⊢
      exact ⟨this.1, this.2⟩

theorem actList_judged {e : Elem} {p : Pos} {c : ActRules} {rs : List ActRule} {d : Pos → Cell} {v : Verdict} {k : Elem}
    (hk : elemAt (formNow e d) p = some k) (h : (actList e p c rs d).2 = .ok v) :
    ∃ ok text, JudgedBy c rs (formNow e d) p (formNow e (putAt d p (actList e p c rs d).1)) ok text ∧ v = (if ok then .yes else .no) ∧
      (actList e p c rs d).1.errors = plusMessage (d p).errors text := by
  unfold actList at h ⊢
  simp only [hk, Option.getD_some] at h ⊢
  by_cases hx : (elemIsEmpty c.field k && c.optional) = true
  · rw [if_pos hx] at h ⊢
    simp only [Except.ok.injEq] at h
    rw [Bool.and_eq_true] at hx
    refine ⟨true, .none, ?_, by rw [← h]; rfl, rfl⟩
    simp only [putAt_self]
    exact .excused hk ⟨hx.2, (blank_iff _ _).1 hx.1⟩
  · rw [if_neg hx] at h ⊢
    have hne : ¬ Excused c.field k := by
      rintro ⟨h1, h2⟩
      apply hx; rw [Bool.and_eq_true]; exact ⟨(blank_iff _ _).2 h2, h1⟩
    by_cases hr : rs.isEmpty = true
    · rw [if_pos hr] at h ⊢
      simp only [Except.ok.injEq, putAt_self] at h ⊢
      refine ⟨!elemIsEmpty c.field k, .none, .given hk hne (List.isEmpty_iff.1 hr) ?_, ?_, rfl⟩
      · rw [← blank_iff]; simp
      · rw [← h]; cases elemIsEmpty c.field k <;> rfl
    · rw [if_neg hr] at h ⊢
      obtain ⟨ok, text, h1, h2, h3⟩ := actLoop_inTurn h
      exact ⟨ok, text, .inTurn hk hne (fun h => hr (List.isEmpty_iff.2 h)) h1, h2, h3⟩

/-! ### the environment -/

/-- way down: the data and the result [proof device, no code] -/
def actDown (e : Elem) (rules : Pos → ActRules) (p : Pos) (d : Pos → Cell) : Cell × Except PyErr Verdict :=
  if containerElem ((elemAt e p).getD .absent) then
    if (rules p).descent.isEmpty then (d p, .ok .unevaluated) else actList e p (rules p) (rules p).descent d
  else actList e p (rules p) (rules p).validators d

/-- way up: the data and the result [proof device, no code] -/
def actUp (e : Elem) (rules : Pos → ActRules) (p : Pos) (d : Pos → Cell) : Cell × Except PyErr Verdict :=
  if containerElem ((elemAt e p).getD .absent) then actList e p (rules p) (rules p).validators d else (d p, .ok .unevaluated)

theorem actEnv_own (e : Elem) (rules : Pos → ActRules) : OwnEnv (actEnv e rules) (fun p d => (actDown e rules p d).1) (fun p d => (actUp e rules p d).1)
    (fun p d => (actDown e rules p d).2) (fun p d => (actUp e rules p d).2) where
  down p st := by
    simp only [actEnv, VEnv.ofClasses, runValidate, actClass, isContainer_eq, actDown, if_true]
    by_cases hc : containerElem ((elemAt e p).getD .absent) = true
    · simp only [hc, if_true, Bool.true_and, List.isEmpty_map]
      by_cases hde : (rules p).descent.isEmpty = true
      · simp [hde, putAt_self]
      · obtain ⟨g1, g2⟩ := validateElement_act e p (rules p) (rules p).descent st
        simp only [hde, Bool.false_eq_true, if_false]
        rw [g1, g2]
    · obtain ⟨g1, g2⟩ := validateElement_act e p (rules p) (rules p).validators st
      simp only [hc, Bool.false_eq_true, if_false, Bool.false_and]
      rw [g1, g2]
  up p st := by
    simp only [actEnv, VEnv.ofClasses, runValidate, actClass, isContainer_eq, actUp, Bool.false_eq_true, if_false]
    by_cases hc : containerElem ((elemAt e p).getD .absent) = true
    · obtain ⟨g1, g2⟩ := validateElement_act e p (rules p) (rules p).validators st
      simp only [hc, if_true]
      rw [g1, g2]
    · simp [hc, putAt_self]

theorem actEnv_flags (e : Elem) (rules : Pos → ActRules) : FlagsUntouched (actEnv e rules) := by
  intro i st
  have h := actEnv_own e rules
  rw [h.down, h.up]
  exact ⟨rfl, rfl⟩

theorem actList_verdict {e : Elem} {p : Pos} {c : ActRules} {rs : List ActRule} {d : Pos → Cell} {v : Verdict}
    (h : (actList e p c rs d).2 = .ok v) : v = .yes ∨ v = .no := by
  unfold actList at h
  simp only at h
  split at h
  · simp at h; exact .inl h.symm
  · split at h
    · simp only [Except.ok.injEq] at h; split at h <;> simp [← h]
    · obtain ⟨ok, _, _, hv, _⟩ := actLoop_inTurn h
      rw [hv]; cases ok <;> simp

end Flatland
