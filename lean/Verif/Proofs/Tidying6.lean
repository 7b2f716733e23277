import Verif.Proofs.Tidying5
/-! The properties of C84. -/
namespace Flatland
open Flatland.Spec

section
variable [Runtime]

/-! ### a scalar with validators of its own data -/

theorem treated_scalar {rules : Pos → ActRules} {e e' : Elem} {p : Pos} {n : Option PStr} {st : ScalarState} {ok : Bool} {down up : Option PStr}
    (h : Treated rules e e' p (.scalar n st) ok down up) :
    up = .none ∧ ∃ t, JudgedBy (rules p) (rules p).validators (seenFrom e e' p) p t ok down ∧ stateAt e' p = stateAt t p := h

theorem treated_own {rules : Pos → ActRules} {e e' : Elem} {p : Pos} {n : Option PStr} {st : ScalarState} {ok : Bool} {down up : Option PStr}
    (h : Treated rules e e' p (.scalar n st) ok down up) (hp : elemAt e p = some (.scalar n st))
    {fs : List (ScalarState → ScalarState × Except PyErr Answer)} (hw : WorkOn (rules p).validators fs) :
    OwnJudged (rules p) fs st (stateAt e' p) ok := by
  obtain ⟨_, t, h1, h2⟩ := treated_scalar h
  rw [h2]
  exact judgedBy_own h1 hw (seenFrom_here hp)

theorem treated_container {rules : Pos → ActRules} {e e' : Elem} {p : Pos} {k : Elem} {ok : Bool} {down up : Option PStr}
    (h : Treated rules e e' p k ok down up) (hc : containerElem k = true) (hd : (rules p).descent = []) :
    down = .none ∧ JudgedBy (rules p) (rules p).validators e' p e' ok up := by
  unfold Treated at h
  rw [if_pos hc] at h
  obtain ⟨okDown, okUp, h1, h2, h3⟩ := h
  rw [if_pos hd] at h3
  obtain ⟨rfl, rfl⟩ := h3
  rw [Bool.true_and] at h1
  subst h1
  exact ⟨rfl, h2⟩

theorem treated_true {rules : Pos → ActRules} {e e' : Elem} {p : Pos} {k : Elem} {down up : Option PStr} (h : Treated rules e e' p k true down up) :
    down = .none ∧ up = .none := by
  unfold Treated at h
  split at h
  · obtain ⟨okDown, okUp, h1, h2, h3⟩ := h
    have h1' : okDown = true ∧ okUp = true := by simpa using h1.symm
    obtain ⟨rfl, rfl⟩ := h1'
    refine ⟨?_, judgedBy_true h2⟩
    split at h3
    · exact h3.2
    · obtain ⟨t, h3⟩ := h3; exact judgedBy_true h3
  · obtain ⟨rfl, t, h1, _⟩ := h
    exact ⟨judgedBy_true h1, rfl⟩

omit [Runtime] in
theorem flag_ofBool_inj {a b : Bool} (h : Flag.ofBool a = Flag.ofBool b) : a = b := by cases a <;> cases b <;> simp_all [Flag.ofBool]

theorem again {e : Elem} (he : e ≠ .absent) {rules : Pos → ActRules} (hd : ∀ p, (rules p).descent = [])
    (hs : ∀ p n st, elemAt e p = some (.scalar n st) → ∃ fs, WorkOn (rules p).validators fs ∧ Settles (rules p) fs)
    {n m : Nat} {flag : Pos → Flag} {errors : Pos → List PStr} {r r' : TidyRun} {b b' : Bool}
    (h : validateActing e rules n flag errors = some r) (hb : r.result = .ok b)
    (h' : validateActing r.form rules m r.flag r.errors = some r') (hb' : r'.result = .ok b') :
    r'.form = r.form ∧ b' = b ∧ r'.flag = r.flag ∧
      ∀ p k, elemAt e p = some k → containerElem k = true ∨ r.flag p = .yes → r'.errors p = r.errors p := by
  obtain ⟨hf, ok, down, up, t1, t2, t3⟩ := acting_summary he h hb
  have he' : r.form ≠ .absent := by obtain ⟨d, hd'⟩ := hf; rw [hd']; intro hx; exact he (withStates_absent.1 hx)
  obtain ⟨hf', ok', down', up', t1', t2', t3'⟩ := acting_summary he' h' hb'
  -- the scalars
  have hscal : ∀ p n st, elemAt e p = some (.scalar n st) → stateAt r'.form p = stateAt r.form p ∧ ok' p = ok p := by
    intro p n st hp
    obtain ⟨fs, hw, hset⟩ := hs p n st hp
    have g1 := treated_own (t1 p _ hp).1 hp hw
    have hp' := sameFrame_get hf hp
    have g2 := treated_own (t1' p _ hp').1 hp' hw
    obtain ⟨a1, a2⟩ := ownJudged_unique g2 (hset _ _ _ g1)
    exact ⟨a1, a2⟩
  have hform : r'.form = r.form := by
    apply sameFrame_eq hf'
    intro p n st hp
    rw [(hscal p n _ (sameFrame_scalar hf hp)).1, stateAt_scalar hp]
  have hcont : ∀ p k, elemAt e p = some k → containerElem k = true → ok' p = ok p ∧ down' p = .none ∧ down p = .none ∧ up' p = up p := by
    intro p k hk hc
    obtain ⟨k', hk', hc', _⟩ := sameFrame_at hf hk
    obtain ⟨g1, g2⟩ := treated_container (t1 p k hk).1 hc (hd p)
    obtain ⟨g3, g4⟩ := treated_container (t1' p k' hk').1 (hc'.trans hc) (hd p)
    rw [hform] at g4
    obtain ⟨_, a1, a2⟩ := judgedBy_unique g4 g2
    exact ⟨a1, g3, g1, a2⟩
  have hok : ∀ p k, elemAt e p = some k → ok' p = ok p := by
    intro p k hk
    by_cases hc : containerElem k = true
    · exact (hcont p k hk hc).1
    · obtain ⟨n, s, rfl⟩ := scalar_of_not (elemAt_some_ne hk) (by simpa using hc)
      exact (hscal p n s hk).2
  refine ⟨hform, ?_, ?_, ?_⟩
  · refine bool_eq_of_iff t2' ?_
    rw [t2]
    constructor
    · intro h p k hk
      obtain ⟨k', hk', _⟩ := sameFrame_at' hf hk
      rw [hok p k' hk']; exact h p k' hk'
    · intro h p k hk
      obtain ⟨k', hk', _⟩ := sameFrame_at hf hk
      rw [← hok p k hk]; exact h p k' hk'
  · funext p
    cases hp : elemAt e p with
    | none =>
      have : elemAt r.form p = none := by
        cases hq : elemAt r.form p with
        | none => rfl
        | some k => obtain ⟨k', hk', _⟩ := sameFrame_at' hf hq; rw [hp] at hk'; cases hk'
      exact (t3' p this).1
    | some k =>
      obtain ⟨k', hk', _⟩ := sameFrame_at hf hp
      rw [(t1' p k' hk').2.1, (t1 p k hp).2.1, hok p k hp]
  · intro p k hk hcase
    obtain ⟨k', hk', _⟩ := sameFrame_at hf hk
    obtain ⟨u1, u2, u3⟩ := t1 p k hk
    obtain ⟨v1, v2, v3⟩ := t1' p k' hk'
    rcases hcase with hc | hfl
    · obtain ⟨w1, w2, w3, w4⟩ := hcont p k hk hc
      rw [v3, u3, w2, w3, w4]
      simp only [plusMessage]
      cases up p with
      | none => rfl
      | some t => by_cases ht : t ∈ errors p <;> simp [ht]
    · rw [hfl] at u2
      have hokp : ok p = true := flag_ofBool_inj (b := true) u2.symm
      rw [hok p k hk, hokp] at v1
      obtain ⟨w1, w2⟩ := treated_true v1
      rw [v3, w1, w2]; rfl

/-! ### settling -/

omit [Runtime] in
theorem ownTurn_reads {fs : List (ScalarState → ScalarState × Except PyErr Answer)} (hr : ∀ f ∈ fs, ∀ st, (f st).1 = st) {st st' : ScalarState} {ok : Bool}
    (h : OwnTurn fs st st' ok) : st' = st := by
  induction h with
  | passed => rfl
  | @next f fs st st1 end' ok h1 _ ih =>
    have := hr f (by simp) st
    rw [h1] at this
    exact (ih (fun g hg => hr g (by simp [hg]))).trans this
  | @failed f fs st st1 a h1 _ =>
    have := hr f (by simp) st
    rw [h1] at this
    exact this

theorem settles_reads {c : ActRules} {fs : List (ScalarState → ScalarState × Except PyErr Answer)} (hr : ∀ f ∈ fs, ∀ st, (f st).1 = st) : Settles c fs := by
  intro st st' ok h
  have hst : st' = st := by
    cases h with
    | excused => rfl
    | given => rfl
    | inTurn _ _ h => exact ownTurn_reads hr h
  rw [hst] at h ⊢
  exact h

theorem settles_tidy {c : ActRules} {g : ScalarState → ScalarState × Except PyErr Answer} {fs : List (ScalarState → ScalarState × Except PyErr Answer)}
    (hg : ∀ st st' a, g st = (st', .ok a) → st' = st ∨ (a = .yes ∧ g st' = (st', .ok .yes) ∧ ¬ BlankData c.textual st'))
    (hr : ∀ f ∈ fs, ∀ st, (f st).1 = st) : Settles c (g :: fs) := by
  intro st st' ok h
  cases h with
  | excused h1 h2 => exact .excused h1 h2
  | given h1 h2 => cases h2
  | inTurn h1 h2 h3 =>
    cases h3 with
    | @next _ _ _ st1 _ _ g1 g2 =>
      have hst := ownTurn_reads hr g2
      subst hst
      rcases hg _ _ _ g1 with heq | ⟨_, ha, hb⟩
      · subst heq; exact .inTurn h1 h2 (.next g1 g2)
      · exact .inTurn (fun hx => hb hx.2) h2 (.next ha g2)
    | failed g1 g2 =>
      rcases hg _ _ _ g1 with heq | ⟨ha, _⟩
      · subst heq; exact .inTurn h1 h2 (.failed g1 g2)
      · exact absurd ha g2

/-! ### the validators of the package -/

omit [Runtime] in
theorem scalarAct_works (f : ScalarState → ScalarState × Except PyErr Answer) (noter : Elem → Pos → Noter) : WorksOn (scalarAct f noter) f := by
  intro t p n st h
  simp [scalarAct, h]

theorem checkRule_works (repr : PStr → PStr) (c : Check) (noter : Elem → Pos → Noter) :
    WorksOn (checkRule repr c noter).acting fun st => (st, (runValidator ⟨st.value, st.u, false⟩ c).map answerOf) := by
  intro t p n st h
  simp [FormRule.acting, checkRule, h, elemValue, elemU]

theorem phone_tidies (ext : PhoneExt) (doStrip textual : Bool) (st st' : ScalarState) (a : Answer)
    (h : ((nanpPhoneValidate ext (stringType doStrip) st).1, (nanpPhoneValidate ext (stringType doStrip) st).2.map answerOf) = (st', .ok a)) :
    st' = st ∨ (a = .yes ∧ ((nanpPhoneValidate ext (stringType doStrip) st').1, (nanpPhoneValidate ext (stringType doStrip) st').2.map answerOf) =
      (st', .ok .yes) ∧ ¬ BlankData textual st') := by
  have key : ∀ s, (st.value = .str s ∨ (st.value = .none ∧ st.u = s)) → st' = st ∨ (a = .yes ∧
      ((nanpPhoneValidate ext (stringType doStrip) st').1, (nanpPhoneValidate ext (stringType doStrip) st').2.map answerOf) = (st', .ok .yes) ∧ ¬ BlankData textual st') := by
    intro s hv
    rcases C66_phone_element ext doStrip st s hv with ⟨h1, h2⟩ | ⟨t, h1, h2, h3⟩
    · left
      rw [h1] at h
      exact (congrArg Prod.fst h).symm
    · right
      rw [h2] at h
      simp only [Except.map, Prod.mk.injEq, Except.ok.injEq] at h
      obtain ⟨rfl, rfl⟩ := h
      refine ⟨rfl, by rw [h3]; rfl, ?_⟩
      rintro ⟨hu, _⟩
      simp only at hu
      subst hu
      have := C66_phone_idempotent ext ext s [] h1
      simp [nanpPhone, phoneClean] at this
  cases hv : st.value with
  | none => exact key st.u (.inr ⟨hv, rfl⟩)
  | str s => exact key s (.inl hv)
  | _ =>
    unfold nanpPhoneValidate at h
    rw [hv] at h
    simp [isNone, Except.map] at h

omit [Runtime] in
theorem decimalInt_ne_nil (n : Int) : decimalInt n ≠ [] := by
  unfold decimalInt
  cases n with
  | ofNat n => exact decimal_ne_nil n
  | negSucc n => simp

theorem nxx_tidies (textual : Bool) (st st' : ScalarState) (a : Answer)
    (h : ((nanpNxx st).1, (nanpNxx st).2.map fun b => if b then Answer.yes else .no) = (st', .ok a)) :
    st' = st ∨ (a = .yes ∧ ((nanpNxx st').1, (nanpNxx st').2.map fun b => if b then Answer.yes else .no) = (st', .ok .yes) ∧ ¬ BlankData textual st') := by
  unfold nanpNxx at h ⊢
  cases hv : st.value with
  | int n =>
    rw [hv] at h
    simp only at h
    by_cases hx : n < 200 ∨ n ∈ nxxRefused
    · rw [if_pos hx] at h
      left; exact (congrArg Prod.fst h).symm
    · rw [if_neg hx] at h
      simp only [Except.map, if_true, Prod.mk.injEq, Except.ok.injEq] at h
      obtain ⟨rfl, rfl⟩ := h
      right
      refine ⟨rfl, ?_, ?_⟩
      · simp only [if_neg hx]; rfl
      · rintro ⟨hu, _⟩; exact decimalInt_ne_nil n hu
  | _ => rw [hv] at h; first | (left; exact (congrArg Prod.fst h).symm) | (simp [Except.map] at h)

/-! ### checks after the changes -/

theorem inTurn_checks {p : Pos} {t t' : Elem} {pre : List ActRule} {post : List FormRule} {text : Option PStr}
    (h : InTurn p t (pre ++ post.map FormRule.acting) t' true text) : ∀ r ∈ post, Passes t' p r := by
  induction pre generalizing t with
  | nil =>
    rw [List.nil_append] at h
    have key : ∀ (post : List FormRule) (t : Elem), InTurn p t (post.map FormRule.acting) t' true text → t' = t ∧ ∀ r ∈ post, Passes t p r := by
      intro post
      induction post with
      | nil => intro t h; cases h; exact ⟨rfl, by simp⟩
      | cons r post ih =>
        intro t h
        rw [List.map_cons] at h
        cases h with
        | next h1 h2 =>
          simp only [FormRule.acting, Prod.mk.injEq] at h1
          obtain ⟨rfl, h1⟩ := h1
          obtain ⟨rfl, h3⟩ := ih _ h2
          refine ⟨rfl, fun x hx => ?_⟩
          rcases List.mem_cons.1 hx with rfl | hx
          · unfold Passes
            cases hdec : x.decide t' p with
            | error er => rw [hdec] at h1; simp [Except.map] at h1
            | ok o =>
              rw [hdec] at h1
              cases o with
              | none => rfl
              | some key => simp [Except.map, answerOf] at h1
          · exact h3 x hx
    obtain ⟨rfl, h2⟩ := key post t h
    exact h2
  | cons r pre ih =>
    rw [List.cons_append] at h
    cases h with
    | next _ h2 => exact ih h2

theorem judgedBy_checks {c : ActRules} {p : Pos} {t t' k : Elem} {pre : List ActRule} {post : List FormRule} {text : Option PStr}
    (h : JudgedBy c (pre ++ post.map FormRule.acting) t p t' true text) (hk : elemAt t' p = some k) (hx : ¬ Excused c.field k) :
    ∀ r ∈ post, Passes t' p r := by
  cases h with
  | excused h1 h2 => rw [hk] at h1; cases h1; exact absurd h2 hx
  | given h1 h2 h3 h4 =>
    have : post = [] := by
      rw [List.append_eq_nil_iff] at h3; simpa using h3.2
    subst this; simp
  | inTurn h1 h2 h3 h4 => exact inTurn_checks h4

/-! ### texts that stay -/

theorem inTurn_text {p : Pos} {t t' : Elem} {rs : List ActRule} {ok : Bool} {text : Option PStr} (h : InTurn p t rs t' ok text)
    (hr : ∀ r ∈ rs, ∀ t n st s, elemAt t p = some (.scalar n st) → (r.act t p).1 = some s → s.u = st.u) {n : Option PStr} {st : ScalarState}
    (hs : elemAt t p = some (.scalar n st)) : (stateAt t' p).u = st.u := by
  have one : ∀ (t : Elem) (r : ActRule) (s : Option ScalarState) (a : Except PyErr Answer) (st : ScalarState),
      (∀ t n st s, elemAt t p = some (.scalar n st) → (r.act t p).1 = some s → s.u = st.u) →
      elemAt t p = some (.scalar n st) → r.act t p = (s, a) → (s.getD st).u = st.u := by
    intro t r s a st hr hs ha
    cases s with
    | none => rfl
    | some s => exact hr t n st s hs (by rw [ha])
  induction h generalizing st with
  | passed => rw [stateAt_scalar hs]
  | @next t r rs s t' ok text ha _ ih =>
    rw [ih (fun r' hr' => hr r' (by simp [hr'])) (changedAt_same hs _)]
    exact one t r s _ st (hr r (by simp)) hs ha
  | @refused t r rs s ha =>
    rw [stateAt_scalar (changedAt_same hs _)]
    exact one t r s _ st (hr r (by simp)) hs ha
  | @noted t r rs s key text ha _ =>
    rw [stateAt_scalar (changedAt_same hs _)]
    exact one t r s _ st (hr r (by simp)) hs ha

theorem judgedBy_text {c : ActRules} {p : Pos} {t t' : Elem} {rs : List ActRule} {ok : Bool} {text : Option PStr} (h : JudgedBy c rs t p t' ok text)
    (hr : ∀ r ∈ rs, ∀ t n st s, elemAt t p = some (.scalar n st) → (r.act t p).1 = some s → s.u = st.u) {n : Option PStr} {st : ScalarState}
    (hs : elemAt t p = some (.scalar n st)) : (stateAt t' p).u = st.u := by
  cases h with
  | excused => rw [stateAt_scalar hs]
  | given => rw [stateAt_scalar hs]
  | inTurn _ _ _ h => exact inTurn_text h hr hs

end

/-! ### `flatten` looks at texts only -/

/-- where a leaf is, its names and its text [proof device, no code] -/
def leafText (l : LeafAt) : Pos × NamePath × PStr := (l.pos, l.names, l.st.u)

mutual
theorem leaves_withStates : ∀ (e : Elem) (d : Pos → ScalarState), (∀ q n s, elemAt e q = some (.scalar n s) → (d q).u = s.u) →
    (leaves (withStates e d)).map leafText = (leaves e).map leafText
  | .scalar n s, d, h => by simp [withStates, leaves, leafText, h [] n s rfl]
  | .dict n ks, d, h => by
    have := leavesKids_withStates 0 ks d fun i k hk q n s hq => h ((0 + i) :: q) n s (by simpa [elemAt, Elem.kids, hk] using hq)
    have h2 := congrArg (List.map fun x : Pos × NamePath × PStr => (x.1, n :: x.2.1, x.2.2)) this
    simpa [withStates, leaves, leafText, Function.comp_def] using h2
  | .array n ks, d, h => by
    have := leavesKids_withStates 0 ks d fun i k hk q n s hq => h ((0 + i) :: q) n s (by simpa [elemAt, Elem.kids, hk] using hq)
    have h2 := congrArg (List.map fun x : Pos × NamePath × PStr => (x.1, n :: x.2.1, x.2.2)) this
    simpa [withStates, leaves, leafText, Function.comp_def] using h2
  | .list n ks, d, h => by
    have := leavesSlots_withStates 0 ks d fun i k hk q n s hq => h ((0 + i) :: q) n s (by simpa [elemAt, Elem.kids, hk] using hq)
    have h2 := congrArg (List.map fun x : Pos × NamePath × PStr => (x.1, n :: x.2.1, x.2.2)) this
    simpa [withStates, leaves, leafText, Function.comp_def] using h2
  | .absent, d, h => by simp [withStates]
theorem leavesKids_withStates : ∀ (i : Nat) (ks : List Elem) (d : Pos → ScalarState),
    (∀ (j : Nat) (k : Elem), ks[j]? = some k → ∀ q n s, elemAt k q = some (.scalar n s) → (d ((i + j) :: q)).u = s.u) →
      (leavesKids i (withStatesAll i ks d)).map leafText = (leavesKids i ks).map leafText
  | i, [], d, _ => by simp [withStatesAll]
  | i, k :: ks, d, h => by
    have h1 := leaves_withStates k (fun q => d (i :: q)) (fun q n s hq => by simpa using h 0 k rfl q n s hq)
    have h2 := leavesKids_withStates (i + 1) ks d (fun j k' hk q n s hq => by
      have := h (j + 1) k' (by simpa using hk) q n s hq
      rwa [show i + (j + 1) = i + 1 + j by omega] at this)
    have h3 := congrArg (List.map fun x : Pos × NamePath × PStr => (i :: x.1, x.2.1, x.2.2)) h1
    rw [withStatesAll, leavesKids, leavesKids, List.map_append, List.map_append, h2]
    congr 1
    simpa [leafText, Function.comp_def] using h3
theorem leavesSlots_withStates : ∀ (i : Nat) (ks : List Elem) (d : Pos → ScalarState),
    (∀ (j : Nat) (k : Elem), ks[j]? = some k → ∀ q n s, elemAt k q = some (.scalar n s) → (d ((i + j) :: q)).u = s.u) →
      (leavesSlots i (withStatesAll i ks d)).map leafText = (leavesSlots i ks).map leafText
  | i, [], d, _ => by simp [withStatesAll]
  | i, k :: ks, d, h => by
    have h1 := leaves_withStates k (fun q => d (i :: q)) (fun q n s hq => by simpa using h 0 k rfl q n s hq)
    have h2 := leavesSlots_withStates (i + 1) ks d (fun j k' hk q n s hq => by
      have := h (j + 1) k' (by simpa using hk) q n s hq
      rwa [show i + (j + 1) = i + 1 + j by omega] at this)
    have h3 := congrArg (List.map fun x : Pos × NamePath × PStr => (i :: x.1, some (decimal i) :: x.2.1, x.2.2)) h1
    rw [withStatesAll, leavesSlots, leavesSlots, List.map_append, List.map_append, h2]
    congr 1
    simpa [leafText, Function.comp_def] using h3
end

mutual
theorem size_withStates : ∀ (e : Elem) (d : Pos → ScalarState), (withStates e d).size = e.size
  | .scalar .., d => by simp [withStates, Elem.size]
  | .dict n ks, d => by simp [withStates, Elem.size, sizeList_withStates 0 ks d]
  | .array n ks, d => by simp [withStates, Elem.size, sizeList_withStates 0 ks d]
  | .list n ks, d => by simp [withStates, Elem.size, sizeList_withStates 0 ks d]
  | .absent, d => by simp [withStates]
theorem sizeList_withStates : ∀ (i : Nat) (ks : List Elem) (d : Pos → ScalarState), sizeList (withStatesAll i ks d) = sizeList ks
  | i, [], d => by simp [withStatesAll]
  | i, k :: ks, d => by simp [withStatesAll, sizeList, size_withStates k, sizeList_withStates (i + 1) ks d]
end

theorem flatten_texts (sep : PStr) {e e' : Elem} (h : OtherData e e')
    (hu : ∀ q n s, elemAt e q = some (.scalar n s) → (stateAt e' q).u = s.u) : flatten sep e' = flatten sep e := by
  obtain ⟨d, rfl⟩ := h
  have hl := leaves_withStates e d (fun q n s hq => by rw [← hu q n s hq, stateAt_withStates e d hq])
  rw [flatten_levels sep (withStates e d) e.size (by rw [size_withStates]; omega), flatten_levels sep e e.size (by omega)]
  congr 1
  funext m
  have key : ∀ L : List LeafAt, (L.filter fun l => l.pos.length == m).map (fun l => (flatName sep l.names, l.st.u)) =
      ((L.map leafText).filter fun x => x.1.length == m).map fun x => (flatName sep x.2.1, x.2.2) := by
    intro L
    induction L with
    | nil => rfl
    | cons l L ih =>
      simp only [List.map_cons, List.filter_cons, leafText]
      split <;> simp_all
  rw [key, key, hl]

end Flatland
