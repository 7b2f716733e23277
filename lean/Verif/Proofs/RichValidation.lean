import Verif.Spec.RichValidation
import Verif.Proofs.RichNodes
import Verif.Proofs.FormValidation
/-! Lemmas about validation of trees with Compounds and JoinedStrings (C93): such a tree is validated as one without them is, under rules that know which
Compounds are empty. -/
namespace Flatland
open Flatland.Spec
variable [Runtime]

omit [Runtime] in
theorem shape_getD (e : NElem) (p : Pos) : (elemAt (shape e) p).getD .absent = shape ((nElemAt e p).getD .absent) := by
  rw [shape_elemAt]
  cases h : nElemAt e p with
  | none => simp [shape]
  | some k => cases k <;> simp [shape, NElem.present, Option.filter]

omit [Runtime] in
theorem shape_container (k : NElem) : isContainerElem (shape k) = isContainerN k := by cases k <;> rfl

/-- the rule as one of Model/FormValidation.lean [proof device, no code] -/
def RichRule.on (e : NElem) (r : RichRule) : FormRule where
  decide _ p := r.decide e p
  noter _ p := r.noter e p

omit [Runtime] in
theorem nElemAt_append (e : NElem) (p q : Pos) : nElemAt e (p ++ q) = (nElemAt e p).bind fun k => nElemAt k q := by
  induction p generalizing e with
  | nil => rfl
  | cons i p ih =>
    simp only [List.cons_append, nElemAt]
    cases e.kids[i]? with
    | none => rfl
    | some k => exact ih k

/-- says nothing [proof device, no code] -/
def silentNoter : Noter := ⟨⟨[], .ok .none, .ok .none⟩, fun _ => .ok .none⟩

/-- accepts everything [proof device, no code] -/
def passRule : FormRule := ⟨fun _ _ => .ok .none, fun _ _ => silentNoter⟩

/-- rejects everything, without a message [proof device, no code] -/
def failRule : FormRule := ⟨fun _ _ => .ok (some []), fun _ _ => silentNoter⟩

/-- the same rules [proof device, no code] -/
def asIs (e : NElem) (f : RichField) : FieldRules where
  optional := f.optional
  validators := f.validators.map (RichRule.on e)
  descent := f.descent.map (RichRule.on e)
  textual := f.textual
  sparse := f.sparse

/-- rules for the shape of a tree that have the same effect [proof device, no code] -/
def plainRules (e : NElem) (rules : Pos → RichField) (p : Pos) : FieldRules :=
  match nElemAt e p with
  | some (.compound _ _ _ ks) =>
    if allEmpty rules p 0 ks then
      if (rules p).optional then { validators := [passRule], descent := (rules p).descent.map fun _ => passRule }
      else { validators := if (rules p).validators = [] then [failRule] else (rules p).validators.map (RichRule.on e)
             descent := (rules p).descent.map (RichRule.on e) }
    else { validators := (rules p).validators.map (RichRule.on e), descent := (rules p).descent.map (RichRule.on e) }
  | _ => asIs e (rules p)

theorem runRule_on (e : NElem) (p : Pos) (rs : List RichRule) : (rs.map (RichRule.on e)).map (runRule (shape e) p) = rs.map (runRichRule e p) := by
  rw [List.map_map]; rfl

theorem runRule_pass (e : Elem) (p : Pos) (st : VState Pos (Pos → List PStr)) : runRule e p passRule st = (st, .ok .truthy) := by
  simp only [runRule, passRule, runCheck, Except.map]
  congr
  funext q
  split
  · simp_all
  · rfl

theorem runRule_fail (e : Elem) (p : Pos) (st : VState Pos (Pos → List PStr)) : runRule e p failRule st = (st, .ok .falseInt) := by
  simp only [runRule, failRule, silentNoter, runCheck, noteMessage, MsgAttr.truth, Except.map]
  simp only [Bool.false_eq_true, if_false]
  congr
  funext q
  split
  · simp_all
  · rfl

theorem loop_pass (e : Elem) (p : Pos) (st : VState Pos (Pos → List PStr)) (rs : List RichRule) (n : Nat) :
    (validatorLoop st n ((rs.map fun _ => passRule).map (runRule e p))).1 = st ∧
    (validatorLoop st n ((rs.map fun _ => passRule).map (runRule e p))).2.2 = .ok .yes := by
  induction rs generalizing n with
  | nil => simp [validatorLoop]
  | cons r rs ih =>
    simp only [List.map_cons, validatorLoop, runRule_pass]
    exact ih (n + 1)

omit [Runtime] in
theorem shapes_any (ks : List NElem) : (shapes ks).any Elem.present = ks.any NElem.present := by
  induction ks with
  | nil => rfl
  | cons k ks ih =>
    simp only [shapes, List.any_cons, ih]
    cases k <;> rfl

omit [Runtime] in
theorem shapes_isEmpty (ks : List NElem) : (shapes ks).isEmpty = ks.isEmpty := by cases ks <;> rfl

/-- the two are validated alike [proof device, no code] -/
theorem richEnv_eq (e : NElem) (rules : Pos → RichField) : richEnv e rules = formEnv (shape e) (plainRules e rules) := by
  unfold richEnv formEnv VEnv.ofClasses
  have key : ∀ d i st, (runValidate (richClass e rules i) d st).1 = (runValidate (formClass (shape e) (plainRules e rules) i) d st).1 ∧
      (runValidate (richClass e rules i) d st).2.2 = (runValidate (formClass (shape e) (plainRules e rules) i) d st).2.2 := by
    intro d i st
    simp only [runValidate, richClass, formClass, shape_getD, shape_container]
    by_cases hc : ∃ n u v ks, nElemAt e i = some (.compound n u v ks)
    · obtain ⟨n, u, v, ks, hk⟩ := hc
      simp only [plainRules, hk, Option.getD_some, isContainerN, if_true, nIsEmpty, shape, elemIsEmpty, Bool.true_and]
      cases hb : allEmpty rules i 0 ks
      · simp only [Bool.false_eq_true, if_false, runRule_on, List.isEmpty_map, Bool.false_and, validateElement]
        cases d <;> simp
      · cases ho : (rules i).optional
        · simp only [if_true, Bool.false_eq_true, if_false, runRule_on, List.isEmpty_map, Bool.false_and, Bool.and_false, validateElement]
          cases d
          · simp only [Bool.false_eq_true, if_false]
            by_cases hv : (rules i).validators = []
            · simp [hv, validatorLoop, runRule_fail]
            · simp only [hv, if_false, runRule_on]
              cases hvs : (rules i).validators with
              | nil => exact absurd hvs hv
              | cons r rs => simp
          · simp only [if_true]
            cases hd : (rules i).descent with
            | nil => simp
            | cons r rs => simp
        · simp only [if_true, List.isEmpty_map, Bool.true_and, validateElement, Bool.false_and, Bool.false_eq_true, if_false]
          cases d
          · simp [validatorLoop, runRule_pass]
          · simp only [if_true]
            cases hd : (rules i).descent with
            | nil => simp
            | cons r rs =>
              have := loop_pass (shape e) i st (r :: rs) 0
              simp only [List.map_cons] at this
              simp only [List.map_cons, List.isEmpty_cons, Bool.false_eq_true, if_false, Bool.and_false, this.1, this.2]
              exact ⟨trivial, trivial⟩
    · have hp : plainRules e rules i = asIs e (rules i) := by
        unfold plainRules
        split
        · rename_i hk; exact absurd ⟨_, _, _, _, hk⟩ hc
        · rfl
      have hem : ∀ k, (∀ n u v ks, k ≠ .compound n u v ks) → nIsEmpty rules i k = elemIsEmpty (plainRules e rules i) (shape k) := by
        intro k hk
        cases k with
        | compound n u v ks => exact absurd rfl (hk n u v ks)
        | scalar => simp [nIsEmpty, shape, elemIsEmpty, hp, asIs]
        | dict => simp [nIsEmpty, shape, elemIsEmpty, hp, asIs, shapes_any]
        | absent => simp [nIsEmpty, shape, elemIsEmpty]
        | _ => simp [nIsEmpty, shape, elemIsEmpty, shapes_isEmpty]
      have hk : ∀ n u v ks, (nElemAt e i).getD .absent ≠ .compound n u v ks := by
        intro n u v ks h
        cases hn : nElemAt e i with
        | none => rw [hn] at h; cases h
        | some k => rw [hn] at h; simp at h; subst h; exact hc ⟨_, _, _, _, hn⟩
      rw [hem _ hk, hp]
      have hvs : (asIs e (rules i)).validators.map (runRule (shape e) i) = (rules i).validators.map (runRichRule e i) := runRule_on e i _
      have hds : (asIs e (rules i)).descent.map (runRule (shape e) i) = (rules i).descent.map (runRichRule e i) := runRule_on e i _
      have hoo : (asIs e (rules i)).optional = (rules i).optional := rfl
      by_cases hcn : isContainerN ((nElemAt e i).getD .absent) = true <;> simp only [hcn, if_true, if_false, hvs, hds, hoo, Bool.false_eq_true] <;>
        exact ⟨trivial, trivial⟩
  congr 1
  · funext i st; rw [(key true i st).1, (key true i st).2]
  · funext i st; rw [(key false i st).1, (key false i st).2]

mutual
theorem nothingIn_iff (rules : Pos → RichField) (p : Pos) : ∀ k, nIsEmpty rules p k = true ↔ NothingIn rules p k
  | .compound _ _ _ ks => by simp only [nIsEmpty, NothingIn]; exact nothingInAll_iff rules p 0 ks
  | .scalar n st => by
    simp only [nIsEmpty, NothingIn]
    cases (rules p).textual with
    | true =>
      simp only [if_true, stringIsEmpty, Bool.and_eq_true, beq_iff_eq, Bool.not_eq_true']
      rw [← truthy_iff]; exact And.comm
    | false =>
      simp only [Bool.false_eq_true, if_false, Bool.and_eq_true, beq_iff_eq]
      cases st.value <;> simp [isNone]
  | .dict n ks => by
    simp only [nIsEmpty, NothingIn, Bool.and_eq_true, Bool.not_eq_true', List.any_eq_false]
    refine and_congr Iff.rfl (forall_congr' fun k => forall_congr' fun _ => ?_)
    cases k <;> simp [NElem.present]
  | .list n ks => by simp [nIsEmpty, NothingIn]
  | .array n ks => by simp [nIsEmpty, NothingIn]
  | .joined n t ks => by simp [nIsEmpty, NothingIn]
  | .absent => by simp [nIsEmpty, NothingIn]
theorem nothingInAll_iff (rules : Pos → RichField) (p : Pos) (i : Nat) : ∀ ks, allEmpty rules p i ks = true ↔ NothingInAll rules p i ks
  | [] => by simp [allEmpty, NothingInAll]
  | k :: ks => by
    simp only [allEmpty, NothingInAll, Bool.and_eq_true]
    rw [nothingIn_iff rules (p ++ [i]) k, nothingInAll_iff rules p (i + 1) ks]
end

omit [Runtime] in
theorem containerN_shape (k : NElem) : containerElem (shape k) = containerN k := by cases k <;> rfl

theorem isBlank_plain (e : NElem) (rules : Pos → RichField) (p : Pos) (k : NElem) (h : At e p k) (hk : ∀ n u v ks, k ≠ .compound n u v ks) :
    plainRules e rules p = asIs e (rules p) ∧
    (IsBlank (plainRules e rules p) (shape k) ↔ NothingIn rules p k) := by
  have hp : plainRules e rules p = asIs e (rules p) := by
    unfold plainRules
    rw [h.1]
    split
    · rename_i hk'; cases hk'; exact absurd rfl (hk _ _ _ _)
    · rfl
  refine ⟨hp, ?_⟩
  rw [← blank_iff, ← nothingIn_iff]
  cases k with
  | compound n u v ks => exact absurd rfl (hk n u v ks)
  | scalar => simp [nIsEmpty, shape, elemIsEmpty, hp, asIs]
  | dict => simp [nIsEmpty, shape, elemIsEmpty, hp, asIs, shapes_any]
  | absent => simp [nIsEmpty, shape, elemIsEmpty]
  | _ => simp [nIsEmpty, shape, elemIsEmpty, shapes_isEmpty]

omit [Runtime] in
theorem passes_on (e : NElem) (p : Pos) (rs : List RichRule) :
    (∀ r ∈ rs.map (RichRule.on e), Passes (shape e) p r) ↔ ∀ r ∈ rs, Accepts e p r := by
  simp only [List.forall_mem_map]
  rfl

theorem complies_iff (e : NElem) (rules : Pos → RichField) (p : Pos) (k : NElem) (h : At e p k) :
    Obeys (shape e) (plainRules e rules) p (shape k) ↔ Complies e rules p k := by
  by_cases hc : ∃ n u v ks, k = .compound n u v ks
  · obtain ⟨n, u, v, ks, rfl⟩ := hc
    unfold Obeys Complies Excused LetOff
    rw [containerN_shape]
    simp only [plainRules, h.1, containerN, true_implies]
    have hni : NothingIn rules p (.compound n u v ks) ↔ allEmpty rules p 0 ks = true := by
      rw [← nothingIn_iff]; simp [nIsEmpty]
    rw [hni]
    cases hb : allEmpty rules p 0 ks
    · simp only [Bool.false_eq_true, if_false, shape, IsBlank, false_and, and_false, passes_on, false_or, not_false_eq_true, implies_true, true_and]
    · cases ho : (rules p).optional
      · simp only [if_true, Bool.false_eq_true, if_false, shape, IsBlank, false_and, passes_on, false_or, not_false_eq_true, implies_true, true_and, not_true_eq_false]
        by_cases hv : (rules p).validators = []
        · simp [hv, Passes, failRule]
        · simp only [hv, if_false, passes_on, false_implies, true_and]
      · simp [Passes, passRule]
  · have hk : ∀ n u v ks, k ≠ .compound n u v ks := fun n u v ks h => hc ⟨n, u, v, ks, h⟩
    obtain ⟨hp, hbl⟩ := isBlank_plain e rules p k h hk
    unfold Obeys Complies Excused LetOff
    rw [containerN_shape, hbl]
    simp only [hp, asIs, passes_on, List.map_eq_nil_iff]

theorem firstMessage_on (e : NElem) (p : Pos) (rs : List RichRule) (t : PStr) :
    FirstMessage (shape e) p (rs.map (RichRule.on e)) t ↔ FirstComplaint e p rs t := by
  constructor
  · rintro ⟨pre, r, post, h, h1, h2⟩
    obtain ⟨pre', rest, rfl, rfl, h'⟩ := List.map_eq_append_iff.1 h
    obtain ⟨r', post', rfl, rfl, rfl⟩ := List.map_eq_cons_iff.1 h'
    exact ⟨pre', r', post', rfl, (passes_on e p pre').1 h1, h2⟩
  · rintro ⟨pre, r, post, rfl, h1, h2⟩
    exact ⟨pre.map (RichRule.on e), r.on e, post.map (RichRule.on e), by simp, (passes_on e p pre).2 h1, h2⟩

theorem firstMessage_pass (e : Elem) (p : Pos) (rs : List RichRule) (t : PStr) : ¬ FirstMessage e p (rs.map fun _ => passRule) t := by
  rintro ⟨pre, r, post, h, _, _, _, h2, _⟩
  have : r ∈ rs.map fun _ => passRule := by rw [h]; simp
  obtain ⟨_, _, rfl⟩ := List.mem_map.1 this
  simp [passRule] at h2

theorem firstMessage_fail (e : Elem) (p : Pos) (t : PStr) : ¬ FirstMessage e p [failRule] t := by
  rintro ⟨pre, r, post, h, _, _, m, _, h2, h3, _⟩
  have : r ∈ [failRule] := by rw [h]; simp
  simp at this
  subst this
  simp [failRule, silentNoter] at h2
  subst h2
  exact h3 (.inl rfl)

theorem complaint_iff (e : NElem) (rules : Pos → RichField) (p : Pos) (k : NElem) (h : At e p k) (t : PStr) :
    Reported (shape e) (plainRules e rules) p (shape k) t ↔ Complaint e rules p k t := by
  by_cases hc : ∃ n u v ks, k = .compound n u v ks
  · obtain ⟨n, u, v, ks, rfl⟩ := hc
    unfold Reported Complaint Excused LetOff
    rw [containerN_shape]
    simp only [plainRules, h.1, containerN, true_and]
    have hni : NothingIn rules p (.compound n u v ks) ↔ allEmpty rules p 0 ks = true := by
      rw [← nothingIn_iff]; simp [nIsEmpty]
    rw [hni]
    cases hb : allEmpty rules p 0 ks
    · simp [shape, IsBlank, firstMessage_on]
    · cases ho : (rules p).optional
      · simp only [if_true, Bool.false_eq_true, if_false, shape, IsBlank, false_and, not_false_eq_true, true_and, firstMessage_on]
        by_cases hv : (rules p).validators = []
        · have hn : ¬ FirstComplaint e p [] t := by rintro ⟨pre, r, post, h, _⟩; simp at h
          simp [hv, firstMessage_fail, hn]
        · simp [hv, firstMessage_on]
      · have h1 := firstMessage_pass (shape e) p [⟨fun _ _ => .ok .none, fun _ _ => silentNoter⟩] t
        have h2 := firstMessage_pass (shape e) p (rules p).descent t
        simp only [List.map_cons, List.map_nil] at h1
        simp [h1, h2]
  · have hk : ∀ n u v ks, k ≠ .compound n u v ks := fun n u v ks h => hc ⟨n, u, v, ks, h⟩
    obtain ⟨hp, hbl⟩ := isBlank_plain e rules p k h hk
    unfold Reported Complaint Excused LetOff
    rw [containerN_shape, hbl]
    simp only [hp, asIs, firstMessage_on]

theorem answers_on (e : NElem) (p : Pos) (rs : List RichRule) (h : Decides e p rs) : Answers (shape e) p (rs.map (RichRule.on e)) := by
  intro r hr
  obtain ⟨r', hr', rfl⟩ := List.mem_map.1 hr
  exact h r' hr'

theorem answers_pass (e : Elem) (p : Pos) (rs : List RichRule) : Answers e p (rs.map fun _ => passRule) := by
  intro r hr
  obtain ⟨_, _, rfl⟩ := List.mem_map.1 hr
  exact .inl rfl

theorem answers_plain (e : NElem) (rules : Pos → RichField) (p : Pos) (k : NElem) (h : At e p k)
    (hv : Decides e p (rules p).validators) (hd : containerN k = true → Decides e p (rules p).descent) :
    Answers (shape e) p (plainRules e rules p).validators ∧ (containerElem (shape k) = true → Answers (shape e) p (plainRules e rules p).descent) := by
  rw [containerN_shape]
  by_cases hc : ∃ n u v ks, k = .compound n u v ks
  · obtain ⟨n, u, v, ks, rfl⟩ := hc
    have hd := hd rfl
    simp only [plainRules, h.1]
    split
    · split
      · exact ⟨answers_pass (shape e) p [⟨fun _ _ => .ok .none, fun _ _ => silentNoter⟩], fun _ => answers_pass _ _ _⟩
      · refine ⟨?_, fun _ => answers_on e p _ hd⟩
        split
        · intro r hr
          simp at hr
          subst hr
          exact .inr ⟨.none, [], .none, rfl, rfl, .inl rfl⟩
        · exact answers_on e p _ hv
    · exact ⟨answers_on e p _ hv, fun _ => answers_on e p _ hd⟩
  · have hk : ∀ n u v ks, k ≠ .compound n u v ks := fun n u v ks h => hc ⟨n, u, v, ks, h⟩
    obtain ⟨hp, hbl⟩ := isBlank_plain e rules p k h hk
    simp only [hp, asIs]
    exact ⟨answers_on e p _ hv, fun hcn => answers_on e p _ (hd hcn)⟩

theorem dateAt_complies {e : NElem} {rules : Pos → RichField} {p : Pos} {v : PyVal} {parts : List ScalarState} (h : DateAt e rules p v parts) :
    (∀ q k, (q = p ∨ ∃ i, q = p ++ [i]) → At e q k → Complies e rules q k) ↔
      ((rules p).optional = true ∨ ∀ a ∈ parts, ¬ Untouched a) ∧
      (((rules p).optional = true ∧ ∀ a ∈ parts, Untouched a) ∨
        ((∀ r ∈ (rules p).validators, Accepts e p r) ∧ ((rules p).validators = [] → ∃ a ∈ parts, ¬ Untouched a))) := by
  obtain ⟨⟨n, u, n₁, n₂, n₃, a, b, c, rfl, hat⟩, hd, hf⟩ := h
  have kid : ∀ i, nElemAt e (p ++ [i]) = [NElem.scalar n₁ a, .scalar n₂ b, .scalar n₃ c][i]? := by
    intro i
    rw [nElemAt_append, hat.1]
    simp only [Option.bind_some, nElemAt, NElem.kids]
    cases [NElem.scalar n₁ a, .scalar n₂ b, .scalar n₃ c][i]? <;> rfl
  have part : ∀ i m x, i < 3 → (Complies e rules (p ++ [i]) (.scalar m x) ↔ ((rules p).optional = true ∨ ¬ Untouched x)) := by
    intro i m x hi
    obtain ⟨h1, h2, h3⟩ := hf i hi
    simp only [Complies, LetOff, NothingIn, h1, h2, h3, Untouched, containerN, Bool.false_eq_true, if_false]
    by_cases ho : (rules p).optional = true <;> by_cases hx : x.u = [] ∧ x.value = .none <;> simp [ho, hx]
  have whole : Complies e rules p (.compound n u v [.scalar n₁ a, .scalar n₂ b, .scalar n₃ c]) ↔
      (((rules p).optional = true ∧ ∀ x ∈ [a, b, c], Untouched x) ∨
        ((∀ r ∈ (rules p).validators, Accepts e p r) ∧ ((rules p).validators = [] → ∃ x ∈ [a, b, c], ¬ Untouched x))) := by
    have hn : NothingIn rules p (.compound n u v [.scalar n₁ a, .scalar n₂ b, .scalar n₃ c]) ↔ ∀ x ∈ [a, b, c], Untouched x := by
      simp [NothingIn, NothingInAll, (hf 0 (by decide)).2.2, (hf 1 (by decide)).2.2, (hf 2 (by decide)).2.2, Untouched]
    simp only [Complies, LetOff, hn, hd, List.not_mem_nil, false_implies, implies_true, and_true, Classical.not_forall, exists_prop]
  constructor
  · intro hall
    refine ⟨?_, whole.1 (hall p _ (.inl rfl) hat)⟩
    by_cases ho : (rules p).optional = true
    · exact .inl ho
    right
    have h0 := (part 0 n₁ a (by decide)).1 (hall _ _ (.inr ⟨0, rfl⟩) ⟨kid 0, by simp⟩)
    have h1 := (part 1 n₂ b (by decide)).1 (hall _ _ (.inr ⟨1, rfl⟩) ⟨kid 1, by simp⟩)
    have h2 := (part 2 n₃ c (by decide)).1 (hall _ _ (.inr ⟨2, rfl⟩) ⟨kid 2, by simp⟩)
    simp only [ho, false_or, Bool.false_eq_true] at h0 h1 h2
    simp [h0, h1, h2]
  · rintro ⟨hp, hw⟩ q k hq hk
    rcases hq with rfl | ⟨i, rfl⟩
    · have : k = _ := Option.some.inj (hk.1.symm.trans hat.1)
      subst this
      exact whole.2 hw
    · have hki := hk.1.symm.trans (kid i)
      match i with
      | 0 => cases hki; exact (part 0 n₁ a (by decide)).2 (hp.imp id fun h => h a (by simp))
      | 1 => cases hki; exact (part 1 n₂ b (by decide)).2 (hp.imp id fun h => h b (by simp))
      | 2 => cases hki; exact (part 2 n₃ c (by decide)).2 (hp.imp id fun h => h c (by simp))
      | i + 3 => simp at hki

end Flatland
