import Verif.Spec.Validate
/-! Lemmas about validation. -/
namespace Flatland
open Flatland.Spec

variable {I D C : Type} [DecidableEq I]

omit [DecidableEq I] in
theorem Flag.ofBool_truth (b : Bool) : (Flag.ofBool b).truth = b := by cases b <;> rfl

omit [DecidableEq I] in
theorem Verdict.flag_truth (v : Verdict) : v.flag.truth = v.truth := by cases v <;> rfl

theorem skipsBelow_iff (v : Verdict) : ¬ SkipsBelow v ↔ v.skips = false := by cases v <;> simp [SkipsBelow, Verdict.skips]

theorem good_iff (v : Verdict) : Good v ↔ v.truth = true := by cases v <;> simp [Good, Verdict.truth]

theorem finalFlag_eq (d u : Verdict) : finalFlag d u = if d.truth = false then .no
    else if u ≠ .unevaluated then .ofBool u.truth
    else if d = .unevaluated then .unevaluated else .yes := by cases d <;> cases u <;> decide

theorem resultFlag_eq (d : Verdict) : resultFlag d = d.flag := by cases d <;> decide

theorem goodFlag_eq (u : Verdict) : (if Good u then Flag.yes else .no) = .ofBool u.truth := by cases u <;> decide

theorem flag_truth_iff (f : Flag) : f.truth = true ↔ f ≠ .no := by cases f <;> decide

theorem nodup_reverse {A : Type} {l : List A} : l.reverse.Nodup ↔ l.Nodup := by
  unfold List.Nodup
  rw [List.pairwise_reverse]
  exact ⟨fun h => h.imp fun h => h.symm, fun h => h.imp fun h => h.symm⟩

theorem setFlag_same (st : VState I D) (i : I) (x : Flag) : (st.setFlag i x).flag i = x := by simp [VState.setFlag]

theorem setFlag_other (st : VState I D) {i j : I} (x : Flag) (h : j ≠ i) : (st.setFlag i x).flag j = st.flag j := by
  simp [VState.setFlag, h]

/-- what holds before every round of the way down -/
structure DownInv (kids : I → List I) (root : I) (queue : List I) (downs : List (I × Verdict)) : Prop where
  nodup : (downs.map Prod.fst).Nodup
  queued : ∀ x ∈ queue, x = root ∨ ∃ y v, (y, v) ∈ downs ∧ ¬ SkipsBelow v ∧ x ∈ kids y
  visited : ∀ a x v b, downs = a ++ (x, v) :: b → x = root ∨ ∃ y w, (y, w) ∈ b ∧ ¬ SkipsBelow w ∧ x ∈ kids y
  closed : ∀ y v, (y, v) ∈ downs → ¬ SkipsBelow v → ∀ x ∈ kids y, x ∈ queue ∨ x ∈ downs.map Prod.fst
  rooted : root ∈ queue ∨ root ∈ downs.map Prod.fst

omit [DecidableEq I] in
theorem downInv_seen {kids : I → List I} {root i : I} {queue : List I} {downs : List (I × Verdict)}
    (h : DownInv kids root (i :: queue) downs) (hi : i ∈ downs.map Prod.fst) : DownInv kids root queue downs where
  nodup := h.nodup
  queued x hx := h.queued x (List.mem_cons_of_mem _ hx)
  visited := h.visited
  closed y v hy hv x hx := by
    rcases h.closed y v hy hv x hx with h' | h'
    · rcases List.mem_cons.1 h' with rfl | h'
      · exact .inr hi
      · exact .inl h'
    · exact .inr h'
  rooted := by
    rcases h.rooted with h' | h'
    · rcases List.mem_cons.1 h' with rfl | h'
      · exact .inr hi
      · exact .inl h'
    · exact .inr h'

omit [DecidableEq I] in
theorem downInv_new {kids : I → List I} {root i : I} {queue : List I} {downs : List (I × Verdict)}
    (h : DownInv kids root (i :: queue) downs) (hi : i ∉ downs.map Prod.fst) (v : Verdict) :
    DownInv kids root (if v.skips then queue else queue ++ kids i) ((i, v) :: downs) where
  nodup := by
    rw [List.map_cons, List.nodup_cons]
    exact ⟨hi, h.nodup⟩
  queued x hx := by
    have lift : x ∈ queue → x = root ∨ ∃ y w, (y, w) ∈ (i, v) :: downs ∧ ¬ SkipsBelow w ∧ x ∈ kids y := by
      intro hx
      rcases h.queued x (List.mem_cons_of_mem _ hx) with h' | ⟨y, w, h1, h2⟩
      · exact .inl h'
      · exact .inr ⟨y, w, List.mem_cons_of_mem _ h1, h2⟩
    split at hx
    · exact lift hx
    · rename_i hs
      rcases List.mem_append.1 hx with hx | hx
      · exact lift hx
      · exact .inr ⟨i, v, List.mem_cons_self, (skipsBelow_iff v).2 (by simpa using hs), hx⟩
  visited a x w b hab := by
    cases a with
    | nil =>
      simp only [List.nil_append, List.cons.injEq, Prod.mk.injEq] at hab
      obtain ⟨⟨rfl, rfl⟩, rfl⟩ := hab
      exact h.queued i List.mem_cons_self
    | cons p a =>
      simp only [List.cons_append, List.cons.injEq] at hab
      exact h.visited a x w b hab.2
  closed y w hy hw x hx := by
    rcases List.mem_cons.1 hy with hy | hy
    · cases hy
      rw [(skipsBelow_iff _).1 hw]
      exact .inl (by simp [hx])
    · rcases h.closed y w hy hw x hx with h' | h'
      · rcases List.mem_cons.1 h' with rfl | h'
        · exact .inr (by simp)
        · left
          split
          · exact h'
          · exact List.mem_append.2 (.inl h')
      · exact .inr (by rw [List.map_cons]; exact List.mem_cons_of_mem _ h')
  rooted := by
    rcases h.rooted with h' | h'
    · rcases List.mem_cons.1 h' with rfl | h'
      · exact .inr (by simp)
      · left
        split
        · exact h'
        · exact List.mem_append.2 (.inl h')
    · exact .inr (by rw [List.map_cons]; exact List.mem_cons_of_mem _ h')

theorem descend_inv {env : VEnv I D} {kids : I → List I} (hk : StaticKids env kids) {root : I} (n : Nat) {st : VState I D} {queue : List I}
    {downs : List (I × Verdict)} {valid : Bool} (h : DownInv kids root queue downs) {st' : VState I D} {downs' : List (I × Verdict)} {b : Bool}
    (hd : descend env n st queue downs valid = some (st', downs', .ok b)) : DownInv kids root [] downs' := by
  induction n generalizing st queue downs valid with
  | zero => simp [descend] at hd
  | succ n ih =>
    cases queue with
    | nil =>
      simp only [descend, Option.some.injEq, Prod.mk.injEq] at hd
      rw [← hd.2.1]; exact h
    | cons i queue =>
      rw [descend] at hd
      split at hd
      · rename_i hi
        exact ih (downInv_seen h hi) hd
      · rename_i hi
        split at hd
        · simp at hd
        · rename_i st1 v heq
          simp only at hd
          split at hd
          · simp at hd
          · rw [hk] at hd
            exact ih (downInv_new h hi v) hd

omit [DecidableEq I] in
theorem open_of_inv {kids : I → List I} {root : I} {downs : List (I × Verdict)} (full : List (I × Verdict))
    (hv : ∀ a x v b, downs = a ++ (x, v) :: b → x = root ∨ ∃ y w, (y, w) ∈ b ∧ ¬ SkipsBelow w ∧ x ∈ kids y)
    (hsub : ∀ p ∈ downs, p ∈ full) : ∀ x v, (x, v) ∈ downs → Open kids full root x := by
  induction downs with
  | nil => intro x v h; cases h
  | cons p downs ih =>
    have ih := ih (fun a x v b hab => hv (p :: a) x v b (by rw [hab]; rfl)) (fun q hq => hsub q (List.mem_cons_of_mem _ hq))
    intro x v h
    rcases List.mem_cons.1 h with h | h
    · subst h
      rcases hv [] x v downs rfl with rfl | ⟨y, w, h1, h2, h3⟩
      · exact .root
      · exact .child (ih y w h1) (hsub _ (List.mem_cons_of_mem _ h1)) h2 h3
    · exact ih x v h

omit [DecidableEq I] in
theorem downInv_open {kids : I → List I} {root : I} {downs : List (I × Verdict)} (h : DownInv kids root [] downs) (x : I) :
    x ∈ downs.map Prod.fst ↔ Open kids downs root x := by
  constructor
  · intro hx
    obtain ⟨⟨y, v⟩, hy, rfl⟩ := List.mem_map.1 hx
    exact open_of_inv downs h.visited (fun _ hp => hp) y v hy
  · intro hx
    induction hx with
    | root => rcases h.rooted with h' | h'
              · cases h'
              · exact h'
    | child _ hy hv hx _ =>
      rcases h.closed _ _ hy hv _ hx with h' | h'
      · cases h'
      · exact h'

omit [DecidableEq I] in
theorem downInv_start (kids : I → List I) (root : I) : DownInv kids root [root] [] where
  nodup := by simp
  queued x hx := by simp at hx; exact .inl hx
  visited a x v b h := by simp at h
  closed y v h := by cases h
  rooted := .inl (by simp)

/-- flags and the running conjunction on the way down -/
theorem descend_flags {env : VEnv I D} (hf : FlagsUntouched env) (st0 : VState I D) (n : Nat) {st : VState I D} {queue : List I}
    {downs : List (I × Verdict)} {valid : Bool} (hn : (downs.map Prod.fst).Nodup) (h1 : ∀ i v, (i, v) ∈ downs → st.flag i = v.flag)
    (h2 : ∀ i, i ∉ downs.map Prod.fst → st.flag i = st0.flag i) (h3 : valid = downs.all fun p => p.2.truth)
    {st' : VState I D} {downs' : List (I × Verdict)} {b : Bool}
    (hd : descend env n st queue downs valid = some (st', downs', .ok b)) :
    (downs'.map Prod.fst).Nodup ∧ (∀ i v, (i, v) ∈ downs' → st'.flag i = v.flag) ∧ (∀ i, i ∉ downs'.map Prod.fst → st'.flag i = st0.flag i) ∧
      b = downs'.all fun p => p.2.truth := by
  induction n generalizing st queue downs valid with
  | zero => simp [descend] at hd
  | succ n ih =>
    cases queue with
    | nil =>
      simp only [descend, Option.some.injEq, Prod.mk.injEq, Except.ok.injEq] at hd
      obtain ⟨rfl, rfl, rfl⟩ := hd
      exact ⟨hn, h1, h2, h3⟩
    | cons i queue =>
      rw [descend] at hd
      split at hd
      · exact ih hn h1 h2 h3 hd
      · rename_i hi
        split at hd
        · simp at hd
        · rename_i st1 v heq
          have hfl : st1.flag = st.flag := by have := (hf i st).1; rw [heq] at this; exact this
          simp only at hd
          split at hd
          · simp at hd
          · rename_i valid' hl
            refine ih ?_ ?_ ?_ ?_ hd
            · rw [List.map_cons, List.nodup_cons]; exact ⟨hi, hn⟩
            · intro j w hj
              rcases List.mem_cons.1 hj with hj | hj
              · cases hj; exact setFlag_same _ _ _
              · have hne : j ≠ i := fun he => hi (he ▸ List.mem_map.2 ⟨_, hj, rfl⟩)
                rw [setFlag_other _ _ hne, hfl]
                exact h1 j w hj
            · intro j hj
              rw [List.map_cons, List.mem_cons, not_or] at hj
              rw [setFlag_other _ _ hj.1, hfl]
              exact h2 j hj.2
            · rw [List.all_cons, ← h3]
              unfold landDown at hl
              split at hl
              · rename_i hv; cases hl; subst hv; simp [Verdict.truth]
              · unfold landResult at hl
                split at hl
                · rename_i hva; rw [hva, Bool.and_true]
                  split at hl
                  · cases hl
                  · cases hl; rfl
                · rename_i hva; cases hl; simp at hva; simp [hva]

/-- the way up -/
theorem ascend_ok {env : VEnv I D} (hf : FlagsUntouched env) (is : List I) (hn : is.Nodup) {st : VState I D} {ups : List (I × Verdict)}
    {valid : Bool} {st' : VState I D} {ups' : List (I × Verdict)} {b : Bool}
    (h : ascend env is st ups valid = (st', ups', .ok b)) :
    ∃ us : List (I × Verdict), ups' = ups ++ us ∧ us.map Prod.fst = is ∧ (∀ j, j ∉ is → st'.flag j = st.flag j) ∧
      (∀ i u, (i, u) ∈ us → st'.flag i = if u = .unevaluated ∨ (st.flag i).truth = false then st.flag i else .ofBool u.truth) ∧
      b = (valid && us.all fun p => !(st.flag p.1).truth || p.2.truth) := by
  induction is generalizing st ups valid with
  | nil =>
    simp only [ascend, Prod.mk.injEq, Except.ok.injEq] at h
    obtain ⟨rfl, rfl, rfl⟩ := h
    exact ⟨[], by simp, rfl, fun _ _ => rfl, fun _ _ h => (by cases h), by simp⟩
  | cons i is ih =>
    rw [List.nodup_cons] at hn
    rw [ascend] at h
    split at h
    · simp at h
    · rename_i st1 v heq
      have hfl : st1.flag = st.flag := by have := (hf i st).2; rw [heq] at this; exact this
      have combine : ∀ (s : VState I D) (valid1 : Bool), (∀ j, j ≠ i → s.flag j = st.flag j) →
          s.flag i = (if v = .unevaluated ∨ (st.flag i).truth = false then st.flag i else .ofBool v.truth) →
          valid1 = (valid && (!(st.flag i).truth || v.truth)) →
          ascend env is s (ups ++ [(i, v)]) valid1 = (st', ups', .ok b) →
          ∃ us : List (I × Verdict), ups' = ups ++ us ∧ us.map Prod.fst = i :: is ∧ (∀ j, j ∉ i :: is → st'.flag j = st.flag j) ∧
            (∀ i u, (i, u) ∈ us → st'.flag i = if u = .unevaluated ∨ (st.flag i).truth = false then st.flag i else .ofBool u.truth) ∧
            b = (valid && us.all fun p => !(st.flag p.1).truth || p.2.truth) := by
        intro s valid1 hs1 hs2 hv hrun
        obtain ⟨us, e1, e2, e3, e4, e5⟩ := ih hn.2 hrun
        have hmem : ∀ j u, (j, u) ∈ us → j ≠ i := by
          intro j u hj he
          apply hn.1
          rw [← e2, ← he]
          exact List.mem_map.2 ⟨_, hj, rfl⟩
        refine ⟨(i, v) :: us, by rw [e1]; simp, by rw [List.map_cons, e2], ?_, ?_, ?_⟩
        · intro j hj
          rw [List.mem_cons, not_or] at hj
          rw [e3 j hj.2, hs1 j hj.1]
        · intro j u hj
          rcases List.mem_cons.1 hj with hj | hj
          · cases hj
            rw [e3 i hn.1, hs2]
          · rw [e4 j u hj, hs1 j (hmem j u hj)]
        · rw [e5, hv, List.all_cons, Bool.and_assoc]
          congr 2
          rw [Bool.eq_iff_iff, List.all_eq_true, List.all_eq_true]
          constructor
          · intro h' p hp; have := h' p hp; rw [hs1 p.1 (hmem p.1 p.2 hp)] at this; exact this
          · intro h' p hp; have := h' p hp; rw [hs1 p.1 (hmem p.1 p.2 hp)]; exact this
      split at h
      · rename_i hv
        refine combine st1 valid (fun j _ => by rw [hfl]) ?_ ?_ h
        · rw [hfl]; simp [hv]
        · subst hv; simp [Verdict.truth]
      · rename_i hv
        split at h
        · rename_i ht
          rw [hfl] at ht
          split at h
          · simp at h
          · rename_i valid' hl
            refine combine _ valid' (fun j hj => by rw [setFlag_other _ _ hj, hfl]) ?_ ?_ h
            · rw [setFlag_same, if_neg]; simp [hv, ht]
            · unfold landResult at hl
              rw [ht]
              split at hl
              · rename_i hva; rw [hva]
                split at hl
                · cases hl
                · cases hl; simp
              · rename_i hva; cases hl; simp at hva; simp [hva]
        · rename_i ht
          rw [hfl] at ht
          refine combine st1 valid (fun j _ => by rw [hfl]) ?_ ?_ h
          · rw [hfl]; simp [ht]
          · simp at ht; simp [ht]

/-- what a run that ends normally consists of -/
theorem validateTree_ok {env : VEnv I D} {fuel : Nat} {root : I} {st : VState I D} {r : VRun I D} {b : Bool}
    (h : validateTree env fuel root st = some r) (hb : r.result = .ok b) :
    ∃ st1 downs valid, descend env fuel st [root] [] true = some (st1, downs, .ok valid) ∧ r.downs = downs.reverse ∧
      ascend env (downs.map Prod.fst) st1 [] valid = (r.state, r.ups, .ok b) := by
  unfold validateTree at h
  split at h
  · cases h
  · cases h; cases hb
  · rename_i st1 downs valid heq
    cases hasc : ascend env (downs.map Prod.fst) st1 [] valid with
    | mk s rest =>
      obtain ⟨u, res⟩ := rest
      rw [hasc] at h
      simp only [Option.some.injEq] at h
      subst h
      simp only at hb
      subst hb
      exact ⟨st1, downs, valid, heq, rfl, hasc⟩

/-- The whole of a run that ends normally. -/
theorem validateTree_summary {env : VEnv I D} (hf : FlagsUntouched env) {fuel : Nat} {root : I} {st : VState I D} {r : VRun I D} {b : Bool}
    (h : validateTree env fuel root st = some r) (hb : r.result = .ok b) :
    (r.downs.map Prod.fst).Nodup ∧ r.ups.map Prod.fst = (r.downs.map Prod.fst).reverse ∧
      (∀ i, i ∉ r.downs.map Prod.fst → r.state.flag i = st.flag i) ∧
      (∀ i d u, (i, d) ∈ r.downs → (i, u) ∈ r.ups → r.state.flag i = finalFlag d u) ∧
      b = ((r.downs.all fun p => p.2.truth) && r.ups.all fun p => p.2.truth) := by
  obtain ⟨st1, downs, valid, h1, h2, h3⟩ := validateTree_ok h hb
  obtain ⟨g1, g2, g3, g4⟩ := descend_flags hf st fuel (by simp) (by simp) (by simp) (by simp) h1
  obtain ⟨us, e1, e2, e3, e4, e5⟩ := ascend_ok hf _ g1 h3
  simp only [List.nil_append] at e1
  have hup : r.ups.map Prod.fst = downs.map Prod.fst := by rw [e1]; exact e2
  refine ⟨by rw [h2, List.map_reverse, nodup_reverse]; exact g1, by rw [hup, h2, List.map_reverse, List.reverse_reverse], ?_, ?_, ?_⟩
  · intro i hi
    rw [h2, List.map_reverse, List.mem_reverse] at hi
    rw [e3 i hi, g3 i hi]
  · intro i d u hd hu
    rw [h2, List.mem_reverse] at hd
    rw [e1] at hu
    rw [e4 i u hu, g2 i d hd, Verdict.flag_truth]
    rw [finalFlag_eq]
    by_cases hdt : d.truth = false
    · rw [if_pos (.inr hdt), if_pos hdt]
      cases d <;> first | rfl | cases hdt
    · rw [if_neg hdt]
      by_cases huu : u = .unevaluated
      · rw [if_pos (.inl huu), if_neg (by simp [huu])]
        cases d <;> first | rfl | exact absurd rfl hdt
      · rw [if_neg (by simp [huu, hdt]), if_pos huu]
  · rw [e5, g4, h2, e1, List.all_reverse]
    cases hall : downs.all fun p => p.2.truth with
    | false => rfl
    | true =>
      simp only [Bool.true_and]
      rw [List.all_eq_true] at hall
      rw [Bool.eq_iff_iff, List.all_eq_true, List.all_eq_true]
      have : ∀ p ∈ us, (st1.flag p.1).truth = true := by
        intro p hp
        have : p.1 ∈ downs.map Prod.fst := by rw [← e2]; exact List.mem_map.2 ⟨p, hp, rfl⟩
        obtain ⟨q, hq, hqp⟩ := List.mem_map.1 this
        rw [← hqp, g2 q.1 q.2 hq, Verdict.flag_truth]
        exact hall q hq
      constructor
      · intro h' p hp; have := this p hp; have h'' := h' p hp; rw [this] at h''; simpa using h''
      · intro h' p hp; rw [h' p hp]; simp

/-! ### determinism -/

theorem descend_view {env : VEnv I D} {view : D → C} (hd : Deterministic env view) (n : Nat) {st1 st2 : VState I D}
    (hv : view st1.data = view st2.data) (queue : List I) (downs : List (I × Verdict)) (valid : Bool)
    {st1' : VState I D} {downs' : List (I × Verdict)} {r : Except PyErr Bool}
    (h : descend env n st1 queue downs valid = some (st1', downs', r)) :
    view st1'.data = view st1.data ∧
        ∃ st2', descend env n st2 queue downs valid = some (st2', downs', r) ∧ view st1'.data = view st2'.data := by
  induction n generalizing st1 st2 queue downs valid with
  | zero => simp [descend] at h
  | succ n ih =>
    cases queue with
    | nil =>
      simp only [descend, Option.some.injEq, Prod.mk.injEq] at h
      obtain ⟨rfl, rfl, rfl⟩ := h
      exact ⟨rfl, st2, rfl, hv⟩
    | cons i queue =>
      rw [descend] at h
      rw [descend]
      split at h
      · rename_i hi; rw [if_pos hi]; exact ih hv queue downs valid h
      · rename_i hi
        rw [if_neg hi]
        have hr := hd.down st1 st2 i hv
        have hk1 := hd.keepsDown st1 i
        have hk2 := hd.keepsDown st2 i
        cases h1 : env.down i st1 with
        | mk s1 r1 =>
          cases h2 : env.down i st2 with
          | mk s2 r2 =>
            rw [h1, h2] at hr
            simp only at hr
            subst hr
            rw [h1] at hk1 h
            rw [h2] at hk2
            simp only at hk1 hk2
            cases r1 with
            | error er =>
              simp only [Option.some.injEq, Prod.mk.injEq] at h
              obtain ⟨rfl, rfl, rfl⟩ := h
              exact ⟨hk1, s2, rfl, by rw [hk1, hk2, hv]⟩
            | ok v =>
              simp only at h ⊢
              cases hl : landDown valid v with
              | error er =>
                rw [hl] at h
                simp only [Option.some.injEq, Prod.mk.injEq] at h
                obtain ⟨rfl, rfl, rfl⟩ := h
                exact ⟨hk1, _, rfl, by simp only [VState.setFlag]; rw [hk1, hk2, hv]⟩
              | ok valid' =>
                rw [hl] at h
                simp only at h ⊢
                have hvv : view (s1.setFlag i v.flag).data = view (s2.setFlag i v.flag).data := by
                  simp only [VState.setFlag]; rw [hk1, hk2, hv]
                rw [hd.children _ _ i hvv] at h
                have := ih hvv _ _ _ h
                exact ⟨by rw [this.1]; exact hk1, this.2⟩

theorem ascend_view {env : VEnv I D} {view : D → C} (hd : Deterministic env view) (is : List I) (hn : is.Nodup) {st1 st2 : VState I D}
    (hv : view st1.data = view st2.data) (hfl : ∀ i ∈ is, st1.flag i = st2.flag i) (ups : List (I × Verdict)) (valid : Bool) :
    (ascend env is st1 ups valid).2 = (ascend env is st2 ups valid).2 ∧
      view (ascend env is st1 ups valid).1.data = view st1.data := by
  induction is generalizing st1 st2 ups valid with
  | nil => exact ⟨rfl, rfl⟩
  | cons i is ih =>
    rw [List.nodup_cons] at hn
    rw [ascend, ascend]
    have hr := hd.up st1 st2 i hv
    have hk1 := hd.keepsUp st1 i
    have hk2 := hd.keepsUp st2 i
    have hf1 := (hd.flags i st1).2
    have hf2 := (hd.flags i st2).2
    cases h1 : env.up i st1 with
    | mk s1 r1 =>
      cases h2 : env.up i st2 with
      | mk s2 r2 =>
        rw [h1, h2] at hr
        simp only at hr
        subst hr
        rw [h1] at hk1 hf1
        rw [h2] at hk2 hf2
        simp only at hk1 hk2 hf1 hf2
        have hvv : view s1.data = view s2.data := by rw [hk1, hk2, hv]
        cases r1 with
        | error er => exact ⟨rfl, hk1⟩
        | ok v =>
          simp only
          have hrest : ∀ j ∈ is, s1.flag j = s2.flag j := by
            intro j hj; rw [hf1, hf2]; exact hfl j (List.mem_cons_of_mem _ hj)
          have hi : s1.flag i = s2.flag i := by rw [hf1, hf2]; exact hfl i List.mem_cons_self
          by_cases hu : v = .unevaluated
          · rw [if_pos hu, if_pos hu]
            have := ih hn.2 hvv hrest (ups ++ [(i, v)]) valid
            exact ⟨this.1, by rw [this.2, hk1]⟩
          · rw [if_neg hu, if_neg hu, hi]
            by_cases ht : (s2.flag i).truth = true
            · rw [if_pos ht, if_pos ht]
              cases hl : landResult valid v with
              | error er => exact ⟨rfl, by simpa [VState.setFlag] using hk1⟩
              | ok valid' =>
                have := ih hn.2 (st1 := s1.setFlag i (.ofBool v.truth)) (st2 := s2.setFlag i (.ofBool v.truth)) hvv
                  (by
                    intro j hj
                    have hne : j ≠ i := fun he => hn.1 (he ▸ hj)
                    rw [setFlag_other _ _ hne, setFlag_other _ _ hne]; exact hrest j hj) (ups ++ [(i, v)]) valid'
                exact ⟨this.1, by simp only; rw [this.2]; exact hk1⟩
            · rw [if_neg ht, if_neg ht]
              have := ih hn.2 hvv hrest (ups ++ [(i, v)]) valid
              exact ⟨this.1, by rw [this.2, hk1]⟩

/-! ### all_children -/

structure AllInv (kids : I → List I) (root : I) (queue out : List I) : Prop where
  nodup : out.Nodup
  noRoot : root ∉ out
  queued : ∀ x ∈ queue, Within kids root x
  visited : ∀ x ∈ out, Within kids root x
  closed : ∀ y, y = root ∨ y ∈ out → ∀ x ∈ kids y, x ∈ queue ∨ x ∈ out ∨ x = root

theorem allChildrenLoop_inv {kids : I → List I} {root : I} (n : Nat) {queue out l : List I} (h : AllInv kids root queue out)
    (hl : allChildrenLoop kids root n queue out = some l) : AllInv kids root [] l := by
  induction n generalizing queue out with
  | zero => simp [allChildrenLoop] at hl
  | succ n ih =>
    cases queue with
    | nil =>
      simp only [allChildrenLoop, Option.some.injEq] at hl
      subst hl
      exact ⟨by rw [nodup_reverse]; exact h.nodup, by simpa using h.noRoot, by simp, by simpa using h.visited, by simpa using h.closed⟩
    | cons i queue =>
      rw [allChildrenLoop] at hl
      split at hl
      · rename_i hi
        refine ih ⟨h.nodup, h.noRoot, fun x hx => h.queued x (List.mem_cons_of_mem _ hx), h.visited, ?_⟩ hl
        intro y hy x hx
        rcases h.closed y hy x hx with h' | h'
        · rcases List.mem_cons.1 h' with rfl | h'
          · rcases hi with hi | hi
            · exact .inr (.inr hi)
            · exact .inr (.inl hi)
          · exact .inl h'
        · exact .inr h'
      · rename_i hi
        rw [not_or] at hi
        have hwi := h.queued i List.mem_cons_self
        refine ih ⟨?_, ?_, ?_, ?_, ?_⟩ hl
        · rw [List.nodup_cons]; exact ⟨hi.2, h.nodup⟩
        · rw [List.mem_cons, not_or]; exact ⟨fun he => hi.1 he.symm, h.noRoot⟩
        · intro x hx
          rcases List.mem_append.1 hx with hx | hx
          · exact h.queued x (List.mem_cons_of_mem _ hx)
          · exact .child hwi hx
        · intro x hx
          rcases List.mem_cons.1 hx with rfl | hx
          · exact hwi
          · exact h.visited x hx
        · intro y hy x hx
          have hold : y = root ∨ y ∈ out → x ∈ queue ++ kids i ∨ x ∈ i :: out ∨ x = root := by
            intro hy
            rcases h.closed y hy x hx with h' | h' | h'
            · rcases List.mem_cons.1 h' with rfl | h'
              · exact .inr (.inl List.mem_cons_self)
              · exact .inl (List.mem_append.2 (.inl h'))
            · exact .inr (.inl (List.mem_cons_of_mem _ h'))
            · exact .inr (.inr h')
          rcases hy with hy | hy
          · exact hold (.inl hy)
          · rcases List.mem_cons.1 hy with rfl | hy
            · exact .inl (List.mem_append.2 (.inr hx))
            · exact hold (.inr hy)

/-- `all_children` lists every element below, once, and not the element itself -/
theorem allChildrenIds_spec {kids : I → List I} {root : I} {n : Nat} {l : List I} (hl : allChildrenIds kids n root = some l) :
    l.Nodup ∧ ∀ x, x ∈ l ↔ x ≠ root ∧ Within kids root x := by
  have h := allChildrenLoop_inv (root := root) n (queue := kids root) (out := [])
    ⟨by simp, by simp, fun x hx => .child .root hx, by simp, by
      intro y hy x hx
      rcases hy with rfl | hy
      · exact .inl hx
      · cases hy⟩ hl
  refine ⟨h.nodup, fun x => ⟨fun hx => ⟨fun he => h.noRoot (he ▸ hx), h.visited x hx⟩, ?_⟩⟩
  rintro ⟨hne, hw⟩
  have : ∀ x, Within kids root x → x = root ∨ x ∈ l := by
    intro x hw
    induction hw with
    | root => exact .inl rfl
    | child _ hx ih =>
      rcases h.closed _ ih _ hx with h' | h' | h'
      · cases h'
      · exact .inr h'
      · exact .inl h'
  rcases this x hw with h' | h'
  · exact absurd h' hne
  · exact h'

/-! ### termination -/

/-- children of the elements of `U` not yet visited -/
def pendingKids (kids : I → List I) (U seen : List I) : Nat :=
  match U with
  | [] => 0
  | u :: us => (if u ∈ seen then 0 else (kids u).length) + pendingKids kids us seen

theorem pendingKids_mono (kids : I → List I) (U seen : List I) (i : I) : pendingKids kids U (i :: seen) ≤ pendingKids kids U seen := by
  induction U with
  | nil => exact Nat.le_refl _
  | cons u us ih =>
    simp only [pendingKids, List.mem_cons]
    by_cases h1 : u ∈ seen
    · simp [h1, ih]
    · by_cases h2 : u = i
      · simp only [h2, true_or, if_true]; omega
      · simp only [h1, h2, false_or, if_false]; omega

theorem pendingKids_new (kids : I → List I) (U seen : List I) {i : I} (hi : i ∈ U) (hs : i ∉ seen) :
    (kids i).length + pendingKids kids U (i :: seen) ≤ pendingKids kids U seen := by
  induction U with
  | nil => cases hi
  | cons u us ih =>
    simp only [pendingKids, List.mem_cons]
    by_cases h2 : u = i
    · subst h2
      have := pendingKids_mono kids us seen u
      simp only [hs, true_or, if_true, if_false]; omega
    · have := ih (by rcases List.mem_cons.1 hi with h | h
                     · exact absurd h.symm h2
                     · exact h)
      simp only [h2, false_or]; omega

theorem descend_terminates {env : VEnv I D} {kids : I → List I} (hk : StaticKids env kids) (U : List I) (hU : ∀ i ∈ U, ∀ x ∈ kids i, x ∈ U)
    (n : Nat) (st : VState I D) (queue : List I) (hq : ∀ x ∈ queue, x ∈ U) (downs : List (I × Verdict)) (valid : Bool)
    (hn : queue.length + pendingKids kids U (downs.map Prod.fst) < n) : descend env n st queue downs valid ≠ none := by
  induction n generalizing st queue downs valid with
  | zero => omega
  | succ n ih =>
    cases queue with
    | nil => simp [descend]
    | cons i queue =>
      simp only [List.length_cons] at hn
      rw [descend]
      split
      · exact ih _ _ (fun x hx => hq x (List.mem_cons_of_mem _ hx)) _ _ (by omega)
      · rename_i hi
        split
        · simp
        · rename_i st1 v _
          simp only
          split
          · simp
          · have hp := pendingKids_new kids U (downs.map Prod.fst) (hq i List.mem_cons_self) hi
            rw [hk]
            refine ih _ _ ?_ _ _ ?_
            · intro x hx
              split at hx
              · exact hq x (List.mem_cons_of_mem _ hx)
              · rcases List.mem_append.1 hx with hx | hx
                · exact hq x (List.mem_cons_of_mem _ hx)
                · exact hU i (hq i List.mem_cons_self) x hx
            · rw [List.map_cons]
              simp only
              split
              · omega
              · rw [List.length_append]; omega

theorem descend_mono {env : VEnv I D} {n m : Nat} (h : n ≤ m) {st : VState I D} {queue : List I} {downs : List (I × Verdict)} {valid : Bool}
    {r} (hr : descend env n st queue downs valid = some r) : descend env m st queue downs valid = some r := by
  induction n generalizing m st queue downs valid with
  | zero => simp [descend] at hr
  | succ n ih =>
    obtain ⟨m, rfl⟩ : ∃ k, m = k + 1 := ⟨m - 1, by omega⟩
    have hm : n ≤ m := by omega
    cases queue with
    | nil => exact hr
    | cons i queue =>
      rw [descend] at hr ⊢
      split at hr
      · rename_i hi; rw [if_pos hi]; exact ih hm hr
      · rename_i hi
        rw [if_neg hi]
        cases heq : env.down i st with
        | mk st1 r1 =>
          rw [heq] at hr
          cases r1 with
          | error er => exact hr
          | ok v =>
            simp only at hr ⊢
            cases hl : landDown valid v with
            | error er => rw [hl] at hr; exact hr
            | ok valid' => rw [hl] at hr; exact ih hm hr

theorem allChildren_terminates (kids : I → List I) (root : I) (U : List I) (hU : ∀ i ∈ U, ∀ x ∈ kids i, x ∈ U)
    (n : Nat) (queue : List I) (hq : ∀ x ∈ queue, x ∈ U) (out : List I)
    (hn : queue.length + pendingKids kids U (out ++ [root]) < n) : allChildrenLoop kids root n queue out ≠ none := by
  induction n generalizing queue out with
  | zero => omega
  | succ n ih =>
    cases queue with
    | nil => simp [allChildrenLoop]
    | cons i queue =>
      simp only [List.length_cons] at hn
      rw [allChildrenLoop]
      split
      · exact ih _ (fun x hx => hq x (List.mem_cons_of_mem _ hx)) _ (by omega)
      · rename_i hi
        rw [not_or] at hi
        have hp := pendingKids_new kids U (out ++ [root]) (hq i List.mem_cons_self) (by simp [hi.1, hi.2])
        refine ih _ ?_ _ ?_
        · intro x hx
          rcases List.mem_append.1 hx with hx | hx
          · exact hq x (List.mem_cons_of_mem _ hx)
          · exact hU i (hq i List.mem_cons_self) x hx
        · rw [List.length_append]
          rw [List.cons_append]
          omega

/-! ### validator chains -/

omit [DecidableEq I] in
theorem validatorLoop_spec (vs : List (Validator I D)) (st : VState I D) (k : Nat) :
    ∃ outs : List VResult, (validatorLoop st k vs).2.1 = (outs.zipIdx k).map (fun p => Signal.validator p.2 p.1) ∧
      outs.length ≤ vs.length ∧ (∀ r ∈ outs.dropLast, continues r) ∧
      ∀ v, (validatorLoop st k vs).2.2 = .ok v →
        (v.truth = true ↔ ∀ r, outs.getLast? = some r → accepts r) ∧
        (v = .skipAll ↔ outs.getLast? = some .skipAll) ∧ (v = .skipAllFalse ↔ outs.getLast? = some .skipAllFalse) ∧
        v ≠ .unevaluated ∧
        ((∀ r, outs.getLast? = some r → continues r) → outs.length = vs.length) ∧ (vs ≠ [] → outs ≠ []) := by
  induction vs generalizing st k with
  | nil =>
    refine ⟨[], rfl, Nat.le_refl _, by simp, ?_⟩
    intro v hv
    simp only [validatorLoop, Except.ok.injEq] at hv
    subst hv
    simp [Verdict.truth]
  | cons fn fns ih =>
    rw [validatorLoop]
    cases hfn : fn st with
    | mk st' r =>
      cases r with
      | error er =>
        refine ⟨[], rfl, Nat.zero_le _, by simp, ?_⟩
        intro v hv; cases hv
      | ok r =>
        cases r with
        | truthy =>
          obtain ⟨outs, h1, h2, h3, h4⟩ := ih st' (k + 1)
          simp only
          refine ⟨.truthy :: outs, ?_, ?_, ?_, ?_⟩
          · simp [h1, List.zipIdx_cons]
          · simp; exact h2
          · intro r hr
            cases outs with
            | nil => simp at hr
            | cons o os =>
              simp only [List.dropLast_cons_cons, List.mem_cons] at hr
              rcases hr with rfl | hr
              · rfl
              · exact h3 r hr
          · intro v hv
            obtain ⟨g1, g2, g3, g4, g5, g6⟩ := h4 v hv
            cases outs with
            | nil =>
              have hfns : fns = [] := by
                cases fns with
                | nil => rfl
                | cons _ _ => exact absurd rfl (g6 (by simp))
              subst hfns
              simp only [validatorLoop, Except.ok.injEq] at hv
              subst hv
              simp [Verdict.truth, accepts]
            | cons o os =>
              rw [List.getLast?_cons_cons]
              refine ⟨g1, g2, g3, g4, ?_, by simp⟩
              intro h; simpa using g5 h
        | _ =>
          refine ⟨[_], rfl, by simp, by simp, ?_⟩
          intro v hv
          simp only [Except.ok.injEq] at hv
          subst hv
          simp [Verdict.truth, accepts, continues]


omit [DecidableEq I] in
theorem validatorLoop_flags (vs : List (Validator I D)) (h : ∀ fn ∈ vs, ∀ st, (fn st).1.flag = st.flag) (st : VState I D) (k : Nat) :
    (validatorLoop st k vs).1.flag = st.flag := by
  induction vs generalizing st k with
  | nil => rfl
  | cons fn fns ih =>
    have h1 := h fn (by simp) st
    unfold validatorLoop
    cases hf : fn st with
    | mk st' r =>
      rw [hf] at h1
      cases r with
      | error er => exact h1
      | ok r => cases r <;> first
        | exact h1
        | (simp only; rw [ih fun f hf => h f (by simp [hf])]; exact h1)

omit [DecidableEq I] in
theorem validateElement_flags (o e : Bool) (vs : List (Validator I D)) (h : ∀ fn ∈ vs, ∀ st, (fn st).1.flag = st.flag) (st : VState I D) :
    (validateElement o e vs st).1.flag = st.flag := by
  unfold validateElement
  split
  · rfl
  · cases vs with
    | nil => rfl
    | cons fn fns => exact validatorLoop_flags _ h st 0

omit [DecidableEq I] in
theorem ofClasses_flagsUntouched (children : VState I D → I → List I) (cls : I → VClass I D)
    (h : ∀ i fn, VClass.runs (cls i) fn → ∀ st, (fn st).1.flag = st.flag) : FlagsUntouched (VEnv.ofClasses children cls) := by
  intro i st
  constructor
  · simp only [VEnv.ofClasses, runValidate, if_true]
    cases hd : (cls i).downList with
    | none => rfl
    | some vs =>
      simp only
      split
      · rfl
      · exact validateElement_flags _ _ _ (fun fn hfn => h i fn (.inl ⟨vs, hd, hfn⟩)) st
  · simp only [VEnv.ofClasses, runValidate, Bool.false_eq_true, if_false]
    cases hd : (cls i).upList with
    | none => rfl
    | some vs => exact validateElement_flags _ _ _ (fun fn hfn => h i fn (.inr ⟨vs, hd, hfn⟩)) st

omit [DecidableEq I] in
theorem validatorLoop_view (view : D → C) (vs : List (Validator I D))
    (h1 : ∀ fn ∈ vs, ∀ st st', view st.data = view st'.data → (fn st).2 = (fn st').2)
    (h2 : ∀ fn ∈ vs, ∀ st, view (fn st).1.data = view st.data) (st st' : VState I D) (hv : view st.data = view st'.data) (k : Nat) :
    (validatorLoop st k vs).2 = (validatorLoop st' k vs).2 ∧ view (validatorLoop st k vs).1.data = view st.data := by
  induction vs generalizing st st' k with
  | nil => exact ⟨rfl, rfl⟩
  | cons fn fns ih =>
    have e1 := h1 fn (by simp) st st' hv
    have e2 := h2 fn (by simp) st
    have e3 := h2 fn (by simp) st'
    unfold validatorLoop
    cases hf : fn st with
    | mk s r =>
      cases hf' : fn st' with
      | mk s' r' =>
        rw [hf] at e1 e2
        rw [hf'] at e1 e3
        simp only at e1 e2 e3
        subst e1
        have hs : view s.data = view s'.data := by rw [e2, e3, hv]
        cases r with
        | error er => exact ⟨rfl, e2⟩
        | ok r => cases r <;> first
          | exact ⟨rfl, e2⟩
          | (obtain ⟨i1, i2⟩ := ih (fun f hf => h1 f (by simp [hf])) (fun f hf => h2 f (by simp [hf])) s s' hs (k + 1)
             simp only
             exact ⟨Prod.ext (congrArg (List.cons _) (congrArg Prod.fst i1)) (show (validatorLoop s (k + 1) fns).2.2 = _ from congrArg (fun p => p.2) i1), by rw [i2, e2]⟩)

omit [DecidableEq I] in
theorem validateElement_view (view : D → C) (o e : Bool) (vs : List (Validator I D))
    (h1 : ∀ fn ∈ vs, ∀ st st', view st.data = view st'.data → (fn st).2 = (fn st').2)
    (h2 : ∀ fn ∈ vs, ∀ st, view (fn st).1.data = view st.data) (st st' : VState I D) (hv : view st.data = view st'.data) :
    (validateElement o e vs st).2 = (validateElement o e vs st').2 ∧ view (validateElement o e vs st).1.data = view st.data := by
  unfold validateElement
  split
  · exact ⟨rfl, rfl⟩
  · cases vs with
    | nil => exact ⟨rfl, rfl⟩
    | cons fn fns => exact validatorLoop_view view _ h1 h2 st st' hv 0

omit [DecidableEq I] in
theorem ofClasses_deterministic (children : VState I D → I → List I) (cls : I → VClass I D) (view : D → C)
    (hc : ∀ st st' i, view st.data = view st'.data → children st i = children st' i)
    (he : ∀ i d d', view d = view d' → (cls i).isEmpty d = (cls i).isEmpty d')
    (h0 : ∀ i fn, VClass.runs (cls i) fn → ∀ st, (fn st).1.flag = st.flag)
    (h1 : ∀ i fn, VClass.runs (cls i) fn → ∀ st st', view st.data = view st'.data → (fn st).2 = (fn st').2)
    (h2 : ∀ i fn, VClass.runs (cls i) fn → ∀ st, view (fn st).1.data = view st.data) : Deterministic (VEnv.ofClasses children cls) view := by
  have down : ∀ st st' i, view st.data = view st'.data → (runValidate (cls i) true st).2 = (runValidate (cls i) true st').2 ∧
      view (runValidate (cls i) true st).1.data = view st.data := by
    intro st st' i hv
    simp only [runValidate, if_true]
    cases hd : (cls i).downList with
    | none => exact ⟨rfl, rfl⟩
    | some vs =>
      simp only
      split
      · exact ⟨rfl, rfl⟩
      · rw [he i _ _ hv]
        exact validateElement_view view _ _ _ (fun fn hfn => h1 i fn (.inl ⟨vs, hd, hfn⟩)) (fun fn hfn => h2 i fn (.inl ⟨vs, hd, hfn⟩)) st st' hv
  have up : ∀ st st' i, view st.data = view st'.data → (runValidate (cls i) false st).2 = (runValidate (cls i) false st').2 ∧
      view (runValidate (cls i) false st).1.data = view st.data := by
    intro st st' i hv
    simp only [runValidate, Bool.false_eq_true, if_false]
    cases hd : (cls i).upList with
    | none => exact ⟨rfl, rfl⟩
    | some vs =>
      simp only
      rw [he i _ _ hv]
      exact validateElement_view view _ _ _ (fun fn hfn => h1 i fn (.inr ⟨vs, hd, hfn⟩)) (fun fn hfn => h2 i fn (.inr ⟨vs, hd, hfn⟩)) st st' hv
  exact ⟨ofClasses_flagsUntouched children cls h0, hc, fun st st' i hv => by rw [VEnv.ofClasses]; simp only; rw [(down st st' i hv).1],
    fun st st' i hv => by rw [VEnv.ofClasses]; simp only; rw [(up st st' i hv).1], fun st i => (down st st i rfl).2, fun st i => (up st st i rfl).2⟩

end Flatland
