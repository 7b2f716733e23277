import Verif.Proofs.Tidying3
import Verif.Proofs.TreeRules2
/-! Runs that end normally, and validators that change nothing. -/
namespace Flatland
open Flatland.Spec

/-! ### an invariant of the data -/
section
variable {I M : Type} [DecidableEq I]

theorem descend_safe {env : VEnv I M} {Q : I → Prop} {P : M → Prop} (hcl : ∀ st i, Q i → ∀ x ∈ env.children st i, Q x)
    (hs : ∀ i st, Q i → P st.data → ∃ v, (env.down i st).2 = .ok v ∧ v ≠ .noObj ∧ P (env.down i st).1.data)
    (n : Nat) {st : VState I M} {queue : List I} {downs : List (I × Verdict)} {valid : Bool} {st' : VState I M}
    {downs' : List (I × Verdict)} {res : Except PyErr Bool} (hq : ∀ x ∈ queue, Q x) (hd : ∀ x ∈ downs.map Prod.fst, Q x) (hp : P st.data)
    (h : descend env n st queue downs valid = some (st', downs', res)) :
    (∃ b, res = .ok b) ∧ P st'.data ∧ ∀ x ∈ downs'.map Prod.fst, Q x := by
  induction n generalizing st queue downs valid with
  | zero => simp [descend] at h
  | succ n ih =>
    cases queue with
    | nil =>
      simp only [descend, Option.some.injEq, Prod.mk.injEq] at h
      obtain ⟨rfl, rfl, rfl⟩ := h
      exact ⟨⟨_, rfl⟩, hp, hd⟩
    | cons i queue =>
      have hQi : Q i := hq i (by simp)
      rw [descend] at h
      by_cases hi : i ∈ downs.map Prod.fst
      · rw [if_pos hi] at h
        exact ih (fun x hx => hq x (by simp [hx])) hd hp h
      · rw [if_neg hi] at h
        obtain ⟨v, hv, hno, hp'⟩ := hs i st hQi hp
        cases hdn : env.down i st with
        | mk st1 rv =>
          rw [hdn] at h hv hp'
          simp only at hv hp'
          subst hv
          simp only at h
          obtain ⟨b', hb'⟩ := landDown_ok valid hno
          rw [hb'] at h
          simp only at h
          refine ih ?_ ?_ ?_ h
          · intro x hx
            split at hx
            · exact hq x (by simp [hx])
            · rcases List.mem_append.1 hx with hx | hx
              · exact hq x (by simp [hx])
              · exact hcl _ i hQi x hx
          · intro x hx
            rw [List.map_cons, List.mem_cons] at hx
            rcases hx with rfl | hx
            · exact hQi
            · exact hd x hx
          · exact hp'

theorem ascend_safe {env : VEnv I M} {Q : I → Prop} {P : M → Prop}
    (hs : ∀ i st, Q i → P st.data → ∃ v, (env.up i st).2 = .ok v ∧ v ≠ .noObj ∧ P (env.up i st).1.data)
    (is : List I) (hq : ∀ x ∈ is, Q x) {st : VState I M} {ups : List (I × Verdict)} {valid : Bool} (hp : P st.data) {st' : VState I M}
    {ups' : List (I × Verdict)} {res : Except PyErr Bool} (h : ascend env is st ups valid = (st', ups', res)) : (∃ b, res = .ok b) ∧ P st'.data := by
  induction is generalizing st ups valid with
  | nil =>
    simp only [ascend, Prod.mk.injEq] at h
    obtain ⟨rfl, rfl, rfl⟩ := h
    exact ⟨⟨_, rfl⟩, hp⟩
  | cons i is ih =>
    have hq' : ∀ x ∈ is, Q x := fun x hx => hq x (by simp [hx])
    obtain ⟨v, hv, hno, hp'⟩ := hs i st (hq i (by simp)) hp
    rw [ascend] at h
    cases hup : env.up i st with
    | mk st1 rv =>
      rw [hup] at h hv hp'
      simp only at hv hp'
      subst hv
      simp only at h
      by_cases hun : v = .unevaluated
      · rw [if_pos hun] at h
        exact ih hq' hp' h
      · rw [if_neg hun] at h
        obtain ⟨b', hb'⟩ := landResult_ok valid hno
        by_cases hf : (st1.flag i).truth = true
        · rw [if_pos hf, hb'] at h
          exact ih hq' (by exact hp') h
        · rw [if_neg hf] at h
          exact ih hq' hp' h

theorem validateTree_safe {env : VEnv I M} {Q : I → Prop} {P : M → Prop} (hcl : ∀ st i, Q i → ∀ x ∈ env.children st i, Q x)
    (hd : ∀ i st, Q i → P st.data → ∃ v, (env.down i st).2 = .ok v ∧ v ≠ .noObj ∧ P (env.down i st).1.data)
    (hu : ∀ i st, Q i → P st.data → ∃ v, (env.up i st).2 = .ok v ∧ v ≠ .noObj ∧ P (env.up i st).1.data)
    {n : Nat} {root : I} (hr : Q root) {st : VState I M} (hp : P st.data) {r : VRun I M} (h : validateTree env n root st = some r) :
    (∃ b, r.result = .ok b) ∧ P r.state.data := by
  unfold validateTree at h
  cases hdesc : descend env n st [root] [] true with
  | none => rw [hdesc] at h; cases h
  | some out =>
    obtain ⟨st1, downs, res⟩ := out
    rw [hdesc] at h
    obtain ⟨⟨b, rfl⟩, h2, h3⟩ := descend_safe hcl hd n (by simpa using hr) (by simp) hp hdesc
    simp only at h
    cases hasc : ascend env (downs.map Prod.fst) st1 [] b with
    | mk s rest =>
      obtain ⟨u, res'⟩ := rest
      rw [hasc] at h
      simp only [Option.some.injEq] at h
      subst h
      exact ascend_safe hu _ h3 h2 hasc

/-! ### one run in the terms of another -/

/-- the same state with other data [proof device, no code] -/
def VState.mapData {N : Type} (f : M → N) (st : VState I M) : VState I N := { flag := st.flag, data := f st.data }

variable {N : Type}

theorem descend_map (f : M → N) {env : VEnv I M} {env' : VEnv I N} (hc : ∀ st i, env'.children (st.mapData f) i = env.children st i)
    (hd : ∀ i st, env'.down i (st.mapData f) = ((env.down i st).1.mapData f, (env.down i st).2)) (n : Nat) (st : VState I M) (queue : List I)
    (downs : List (I × Verdict)) (valid : Bool) :
    descend env' n (st.mapData f) queue downs valid = (descend env n st queue downs valid).map fun r => (r.1.mapData f, r.2) := by
  induction n generalizing st queue downs valid with
  | zero => simp [descend]
  | succ n ih =>
    cases queue with
    | nil => simp [descend]
    | cons i queue =>
      rw [descend, descend]
      by_cases hi : i ∈ downs.map Prod.fst
      · rw [if_pos hi, if_pos hi]; exact ih ..
      · rw [if_neg hi, if_neg hi, hd]
        cases hdn : env.down i st with
        | mk st1 rv =>
          cases rv with
          | error er => simp
          | ok v =>
            have hset : (st1.mapData f).setFlag i v.flag = (st1.setFlag i v.flag).mapData f := rfl
            simp only [hset]
            cases landDown valid v with
            | error er => simp
            | ok valid' =>
              simp only [hc]
              exact ih ..

theorem ascend_map (f : M → N) {env : VEnv I M} {env' : VEnv I N}
    (hu : ∀ i st, env'.up i (st.mapData f) = ((env.up i st).1.mapData f, (env.up i st).2)) (is : List I) (st : VState I M)
    (ups : List (I × Verdict)) (valid : Bool) :
    ascend env' is (st.mapData f) ups valid = ((ascend env is st ups valid).1.mapData f, (ascend env is st ups valid).2) := by
  induction is generalizing st ups valid with
  | nil => simp [ascend]
  | cons i is ih =>
    rw [ascend, ascend, hu]
    cases hup : env.up i st with
    | mk st1 rv =>
      cases rv with
      | error er => simp
      | ok v =>
        simp only
        by_cases hun : v = .unevaluated
        · rw [if_pos hun, if_pos hun]; exact ih ..
        · rw [if_neg hun, if_neg hun]
          by_cases hf : (st1.flag i).truth = true
          · rw [if_pos hf, if_pos (show ((st1.mapData f).flag i).truth = true from hf)]
            have hset : (st1.mapData f).setFlag i (.ofBool v.truth) = (st1.setFlag i (.ofBool v.truth)).mapData f := rfl
            simp only [hset]
            cases landResult valid v with
            | error er => simp
            | ok valid' => exact ih ..
          · rw [if_neg hf, if_neg (show ¬ ((st1.mapData f).flag i).truth = true from hf)]
            exact ih ..

theorem validateTree_map (f : M → N) {env : VEnv I M} {env' : VEnv I N} (hc : ∀ st i, env'.children (st.mapData f) i = env.children st i)
    (hd : ∀ i st, env'.down i (st.mapData f) = ((env.down i st).1.mapData f, (env.down i st).2))
    (hu : ∀ i st, env'.up i (st.mapData f) = ((env.up i st).1.mapData f, (env.up i st).2)) (n : Nat) (root : I) (st : VState I M) :
    validateTree env' n root (st.mapData f) =
      (validateTree env n root st).map fun r => ⟨r.state.mapData f, r.downs, r.ups, r.result⟩ := by
  unfold validateTree
  rw [descend_map f hc hd]
  cases descend env n st [root] [] true with
  | none => simp
  | some out =>
    obtain ⟨st1, downs, res⟩ := out
    cases res with
    | error er => simp
    | ok b =>
      simp only [Option.map_some]
      rw [ascend_map f hu]

end

/-! ### the forms -/
section
variable [Runtime]

omit [Runtime] in
theorem formNow_frame (e : Elem) (d : Pos → Cell) : OtherData e (formNow e d) := ⟨_, rfl⟩

omit [Runtime] in
theorem formNow_cells (e : Elem) (errors : Pos → List PStr) : formNow e (cellsOf e errors) = e := withStates_self e

theorem actLoop_answers {Inv : Elem → Prop} {e : Elem} {p : Pos} {rs : List ActRule} (ha : AnswersIn Inv e p rs) {d : Pos → Cell}
    (hi : Inv (formNow e d)) :
    ∃ v, (actLoop e p rs d).2 = .ok v ∧ Inv (formNow e (putAt d p (actLoop e p rs d).1)) := by
  induction rs generalizing d with
  | nil => exact ⟨.yes, rfl, by rw [actLoop, putAt_self]; exact hi⟩
  | cons r rs ih =>
    obtain ⟨s, a, h1, h2, h3⟩ := ha _ (formNow_frame e d) hi r (by simp)
    have hf := actStep_form e p r d
    rw [h1] at hf
    simp only at hf
    have hstep : ∃ b, (actStep e p r d).2 = .ok b := by
      have hr : (actStep e p r d).2 = (answerNotes (r.noter (changedAt (formNow e d) p s) p) (d p).errors (.ok a)).2 := by
        unfold actStep; simp only [h1]; rw [← formNow_change, withChange_errors]
      rw [hr]
      cases a with
      | yes => exact ⟨true, rfl⟩
      | no => exact ⟨false, rfl⟩
      | note key =>
        obtain ⟨text, ht⟩ := h3 key rfl
        have hg : MsgAttr.none.truth = false := rfl
        rw [answerNotes, runCheck, noteMessage, if_neg (by simp [hg])]
        cases text with
        | none => obtain ⟨m, hm, hmt⟩ := ht; rw [hm]; simp [(msg_silent m).2 hmt]
        | some text => obtain ⟨m, hm, hmt, hx⟩ := ht; rw [hm]; simp [(msg_says m).2 hmt, hx]
    obtain ⟨b, hb⟩ := hstep
    rw [actLoop, hb]
    cases b with
    | false => exact ⟨.no, rfl, by simp only; rw [hf]; exact h2⟩
    | true =>
      simp only
      obtain ⟨v, hv, hv'⟩ := ih (fun t ht hit r' hr' => ha t ht hit r' (by simp [hr'])) (d := putAt d p (actStep e p r d).1) (by rw [hf]; exact h2)
      rw [putAt_twice] at hv'
      exact ⟨v, hv, hv'⟩

theorem actList_answers {Inv : Elem → Prop} {e : Elem} {p : Pos} {c : ActRules} {rs : List ActRule} (ha : AnswersIn Inv e p rs) {d : Pos → Cell}
    (hi : Inv (formNow e d)) :
    ∃ v, (actList e p c rs d).2 = .ok v ∧ Inv (formNow e (putAt d p (actList e p c rs d).1)) := by
  unfold actList
  simp only
  split
  · exact ⟨_, rfl, by simp only [putAt_self]; exact hi⟩
  · split
    · exact ⟨_, rfl, by simp only [putAt_self]; exact hi⟩
    · exact actLoop_answers ha hi

theorem acting_answers {Inv : Elem → Prop} {e : Elem} (he : e ≠ .absent) {rules : Pos → ActRules} (hi : Inv e)
    (ha : ∀ p k, elemAt e p = some k → AnswersIn Inv e p (rules p).validators ∧ (containerElem k = true → AnswersIn Inv e p (rules p).descent))
    {n : Nat} {flag : Pos → Flag} {errors : Pos → List PStr} {r : TidyRun} (h : validateActing e rules n flag errors = some r) :
    (∃ b, r.result = .ok b) ∧ Inv r.form := by
  unfold validateActing at h
  cases hv : validateTree (actEnv e rules) n [] { flag := flag, data := cellsOf e errors } with
  | none => rw [hv] at h; cases h
  | some vr =>
    rw [hv] at h
    simp only [Option.map_some, Option.some.injEq] at h
    subst h
    have hown := actEnv_own e rules
    refine validateTree_safe (Q := fun p => (elemAt e p).isSome) (P := fun d => Inv (formNow e d)) ?_ ?_ ?_ ?_ ?_ hv
    · intro st p _ x hx
      exact (mem_childPositions.1 hx).choose_spec.2
    · intro p st hp hst
      obtain ⟨k, hk⟩ := Option.isSome_iff_exists.1 hp
      rw [hown.down]
      simp only [actDown, hk, Option.getD_some]
      by_cases hc : containerElem k = true
      · simp only [hc, if_true]
        by_cases hde : (rules p).descent.isEmpty = true
        · simp only [hde, if_true, putAt_self]; exact ⟨_, rfl, by simp, hst⟩
        · simp only [hde, Bool.false_eq_true, if_false]
          obtain ⟨v, h1, h2⟩ := actList_answers (c := rules p) ((ha p k hk).2 hc) hst
          refine ⟨v, h1, ?_, h2⟩
          rcases actList_verdict h1 with rfl | rfl <;> simp
      · simp only [hc, Bool.false_eq_true, if_false]
        obtain ⟨v, h1, h2⟩ := actList_answers (c := rules p) (ha p k hk).1 hst
        refine ⟨v, h1, ?_, h2⟩
        rcases actList_verdict h1 with rfl | rfl <;> simp
    · intro p st hp hst
      obtain ⟨k, hk⟩ := Option.isSome_iff_exists.1 hp
      rw [hown.up]
      simp only [actUp, hk, Option.getD_some]
      by_cases hc : containerElem k = true
      · simp only [hc, if_true]
        obtain ⟨v, h1, h2⟩ := actList_answers (c := rules p) (ha p k hk).1 hst
        refine ⟨v, h1, ?_, h2⟩
        rcases actList_verdict h1 with rfl | rfl <;> simp
      · simp only [hc, Bool.false_eq_true, if_false, putAt_self]; exact ⟨_, rfl, by simp, hst⟩
    · show (elemAt e []).isSome
      rw [elemAt_nil e he]; rfl
    · show Inv (formNow e (cellsOf e errors))
      rw [formNow_cells]; exact hi

/-! ### validators that change nothing -/

theorem runAct_acting (e : Elem) (p : Pos) (r : FormRule) (st : VState Pos (Pos → List PStr)) :
    runAct e p r.acting (st.mapData (cellsOf e)) = ((runRule e p r st).1.mapData (cellsOf e), (runRule e p r st).2) := by
  unfold runAct runRule
  simp only [VState.mapData, FormRule.acting, withChange, formNow_cells]
  have hn : answerNotes (r.noter e p) (cellsOf e st.data p).errors ((r.decide e p).map answerOf) = runCheck (r.noter e p) (st.data p) (r.decide e p) := by
    cases r.decide e p with
    | error er => rfl
    | ok x => cases x <;> rfl
  rw [hn]
  simp only [Prod.mk.injEq, and_true]
  congr 1
  funext q
  unfold cellsOf
  by_cases hq : q = p
  · subst hq; simp
  · simp [hq]

theorem validatorLoop_acting (e : Elem) (p : Pos) (rs : List FormRule) (st : VState Pos (Pos → List PStr)) (k : Nat) :
    validatorLoop (st.mapData (cellsOf e)) k ((rs.map FormRule.acting).map (runAct e p)) =
      ((validatorLoop st k (rs.map (runRule e p))).1.mapData (cellsOf e), (validatorLoop st k (rs.map (runRule e p))).2) := by
  induction rs generalizing st k with
  | nil => simp [validatorLoop]
  | cons r rs ih =>
    simp only [List.map_cons, validatorLoop, runAct_acting]
    cases runRule e p r st with
    | mk st1 res =>
      cases res with
      | error er => simp
      | ok v =>
        cases v <;> simp only
        rw [ih]

theorem validateElement_acting (e : Elem) (p : Pos) (o em : Bool) (rs : List FormRule) (st : VState Pos (Pos → List PStr)) :
    validateElement o em ((rs.map FormRule.acting).map (runAct e p)) (st.mapData (cellsOf e)) =
      ((validateElement o em (rs.map (runRule e p)) st).1.mapData (cellsOf e), (validateElement o em (rs.map (runRule e p)) st).2) := by
  unfold validateElement
  by_cases hx : (em && o) = true
  · simp only [hx, if_true]
  · simp only [hx, Bool.false_eq_true, if_false]
    cases rs with
    | nil => simp
    | cons r rs => exact validatorLoop_acting e p (r :: rs) st 0

theorem elemIsEmpty_field (rules : Pos → FieldRules) (p : Pos) (k : Elem) : elemIsEmpty (actingRules rules p).field k = elemIsEmpty (rules p) k := by
  cases k <;> rfl

theorem validateActing_acting (e : Elem) (rules : Pos → FieldRules) (n : Nat) (flag : Pos → Flag) (errors : Pos → List PStr) :
    validateActing e (actingRules rules) n flag errors =
      (validateForm e rules n { flag := flag, data := errors }).map fun r => { form := e, flag := r.state.flag, errors := r.state.data, result := r.result } := by
  have h := validateTree_map (cellsOf e) (env := formEnv e rules) (env' := actEnv e (actingRules rules)) (fun _ _ => rfl) ?_ ?_ n []
    { flag := flag, data := errors }
  · unfold validateActing validateForm
    have hst : (VState.mk flag (cellsOf e errors) : VState Pos (Pos → Cell)) = VState.mapData (cellsOf e) { flag := flag, data := errors } := rfl
    rw [hst, h]
    cases validateTree (formEnv e rules) n [] { flag := flag, data := errors } with
    | none => rfl
    | some r =>
      simp only [Option.map_some, VState.mapData, formNow_cells]
      rfl
  · intro p st
    simp only [actEnv, formEnv, VEnv.ofClasses, runValidate, actClass, formClass, if_true]
    have hem : elemIsEmpty (actingRules rules p).field ((elemAt (formNow e (st.mapData (cellsOf e)).data) p).getD .absent) =
        elemIsEmpty (rules p) ((elemAt e p).getD .absent) := by
      rw [elemIsEmpty_field]; simp only [VState.mapData, formNow_cells]
    rw [hem]
    by_cases hc : isContainerElem ((elemAt e p).getD .absent) = true
    · simp only [hc, if_true, Bool.true_and, List.isEmpty_map, actingRules]
      by_cases hde : (rules p).descent.isEmpty = true
      · simp [hde]
      · simp only [hde, Bool.false_eq_true, if_false]
        rw [validateElement_acting]
    · simp only [hc, Bool.false_eq_true, if_false, Bool.false_and, actingRules]
      rw [validateElement_acting]
  · intro p st
    simp only [actEnv, formEnv, VEnv.ofClasses, runValidate, actClass, formClass, Bool.false_eq_true, if_false]
    have hem : elemIsEmpty (actingRules rules p).field ((elemAt (formNow e (st.mapData (cellsOf e)).data) p).getD .absent) =
        elemIsEmpty (rules p) ((elemAt e p).getD .absent) := by
      rw [elemIsEmpty_field]; simp only [VState.mapData, formNow_cells]
    rw [hem]
    by_cases hc : isContainerElem ((elemAt e p).getD .absent) = true
    · simp only [hc, if_true, actingRules]
      rw [validateElement_acting]
    · simp only [hc, Bool.false_eq_true, if_false]

end

end Flatland
