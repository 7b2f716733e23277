import Verif.Proofs.Validate
/-! Helper lemmas: runs of `validate()` that raise. -/
namespace Flatland
open Flatland.Spec

variable {I D : Type} [DecidableEq I]

/-- some false result comes before any false object -/
def NoFirstObject (l : List (I × Verdict)) : Prop :=
  ∀ pre i post, l = pre ++ (i, Verdict.noObj) :: post → ∃ p ∈ pre, p.2.truth = false

omit [DecidableEq I] in
theorem noFirstObject_snoc {l : List (I × Verdict)} (h : NoFirstObject l) {i : I} {v : Verdict}
    (hv : v = .noObj → l.all (fun p => p.2.truth) = false) : NoFirstObject (l ++ [(i, v)]) := by
  intro pre j post he
  rcases List.append_eq_append_iff.1 he with ⟨as, h1, h2⟩ | ⟨bs, h1, h2⟩
  · cases as with
    | nil =>
      simp only [List.nil_append, List.cons.injEq, Prod.mk.injEq, List.append_nil] at h1 h2
      have := hv h2.1.2
      rw [h1]
      rw [List.all_eq_false] at this
      obtain ⟨p, hp, ht⟩ := this
      exact ⟨p, hp, by simpa using ht⟩
    | cons a as => simp at h2
  · cases bs with
    | nil =>
      simp only [List.nil_append, List.append_nil, List.cons.injEq, Prod.mk.injEq] at h1 h2
      have := hv h2.1.2.symm
      rw [h1] at this
      rw [List.all_eq_false] at this
      obtain ⟨p, hp, ht⟩ := this
      exact ⟨p, hp, by simpa using ht⟩
    | cons b bs =>
      simp only [List.cons_append, List.cons.injEq] at h2
      obtain ⟨rfl, _⟩ := h2
      exact h pre j bs h1

/-- how the way down ends -/
theorem descend_outcome {env : VEnv I D} (n : Nat) {st : VState I D} {queue : List I} {downs : List (I × Verdict)} {valid : Bool}
    (h3 : valid = downs.all fun p => p.2.truth) (hc : NoFirstObject downs.reverse)
    {st' : VState I D} {downs' : List (I × Verdict)} {res : Except PyErr Bool}
    (hd : descend env n st queue downs valid = some (st', downs', res)) :
    (NoFirstObject downs'.reverse ∧ ((∃ b, res = .ok b) ∨ ∃ er i s s', res = .error er ∧ env.down i s = (s', .error er))) ∨
    (res = .error .type ∧ ∃ i rest, downs' = (i, .noObj) :: rest ∧ ∀ p ∈ rest, p.2.truth = true) := by
  induction n generalizing st queue downs valid with
  | zero => simp [descend] at hd
  | succ n ih =>
    cases queue with
    | nil =>
      simp only [descend, Option.some.injEq, Prod.mk.injEq] at hd
      obtain ⟨rfl, rfl, rfl⟩ := hd
      exact .inl ⟨hc, .inl ⟨_, rfl⟩⟩
    | cons i queue =>
      rw [descend] at hd
      split at hd
      · exact ih h3 hc hd
      · split at hd
        · rename_i st1 er heq
          simp only [Option.some.injEq, Prod.mk.injEq] at hd
          obtain ⟨rfl, rfl, rfl⟩ := hd
          exact .inl ⟨hc, .inr ⟨_, _, _, _, rfl, heq⟩⟩
        · rename_i st1 v heq
          simp only at hd
          split at hd
          · rename_i er hl
            simp only [Option.some.injEq, Prod.mk.injEq] at hd
            obtain ⟨rfl, rfl, rfl⟩ := hd
            unfold landDown at hl
            split at hl
            · cases hl
            · unfold landResult at hl
              split at hl
              · rename_i hva
                split at hl
                · cases hl
                  refine .inr ⟨rfl, i, downs, rfl, ?_⟩
                  rw [hva] at h3
                  exact fun p hp => List.all_eq_true.1 h3.symm p hp
                · cases hl
              · cases hl
          · rename_i valid' hl
            refine ih ?_ ?_ hd
            · rw [List.all_cons, ← h3]
              unfold landDown at hl
              split at hl
              · rename_i hv; cases hl; subst hv; simp [Verdict.truth]
              · unfold landResult at hl
                split at hl
                · rename_i hva; rw [hva, Bool.and_true]
                  split at hl
                  · cases hl
                  · cases hl; rfl
                · rename_i hva; cases hl; simp at hva; simp [hva]
            · rw [List.reverse_cons]
              refine noFirstObject_snoc hc ?_
              intro hv
              subst hv
              rw [List.all_reverse, ← h3]
              cases valid with
              | false => rfl
              | true => simp [landDown, landResult] at hl

/-- how the way up ends -/
theorem ascend_outcome {env : VEnv I D} (hf : FlagsUntouched env) (is : List I) (hn : is.Nodup) {before : List (I × Verdict)}
    {st : VState I D} {ups : List (I × Verdict)} {valid : Bool} (hv : valid = (before ++ ups).all fun p => p.2.truth)
    (hfl : valid = true → ∀ i ∈ is, (st.flag i).truth = true) (hc : NoFirstObject (before ++ ups))
    {st' : VState I D} {ups' : List (I × Verdict)} {res : Except PyErr Bool}
    (h : ascend env is st ups valid = (st', ups', res)) :
    (NoFirstObject (before ++ ups') ∧ ((∃ b, res = .ok b) ∨ ∃ er i s s', res = .error er ∧ env.up i s = (s', .error er))) ∨
    (res = .error .type ∧ ∃ i rest, ups' = rest ++ [(i, .noObj)] ∧ ∀ p ∈ before ++ rest, p.2.truth = true) := by
  induction is generalizing st ups valid with
  | nil =>
    simp only [ascend, Prod.mk.injEq] at h
    obtain ⟨rfl, rfl, rfl⟩ := h
    exact .inl ⟨hc, .inl ⟨_, rfl⟩⟩
  | cons i is ih =>
    rw [List.nodup_cons] at hn
    rw [ascend] at h
    split at h
    · rename_i st1 er heq
      simp only [Prod.mk.injEq] at h
      obtain ⟨rfl, rfl, rfl⟩ := h
      exact .inl ⟨hc, .inr ⟨_, _, _, _, rfl, heq⟩⟩
    · rename_i st1 v heq
      have hfs : st1.flag = st.flag := by have := (hf i st).2; rw [heq] at this; exact this
      have next : ∀ (s : VState I D) (valid' : Bool), (∀ j, j ≠ i → s.flag j = st.flag j) → valid' = (valid && v.truth) →
          (v = .noObj → valid = false) → ascend env is s (ups ++ [(i, v)]) valid' = (st', ups', res) →
          (NoFirstObject (before ++ ups') ∧ ((∃ b, res = .ok b) ∨ ∃ er i s s', res = .error er ∧ env.up i s = (s', .error er))) ∨
          (res = .error .type ∧ ∃ i rest, ups' = rest ++ [(i, .noObj)] ∧ ∀ p ∈ before ++ rest, p.2.truth = true) := by
        intro s valid' hs hvalid hno hrun
        refine ih hn.2 ?_ ?_ ?_ hrun
        · rw [hvalid, hv, ← List.append_assoc]; simp [List.all_append, Bool.and_assoc]
        · intro ht j hj
          have hne : j ≠ i := fun he => hn.1 (he ▸ hj)
          rw [hs j hne]
          rw [hvalid, Bool.and_eq_true] at ht
          exact hfl ht.1 j (List.mem_cons_of_mem _ hj)
        · rw [← List.append_assoc]
          exact noFirstObject_snoc hc fun hv' => by rw [← hv]; exact hno hv'
      split at h
      · rename_i hu
        subst hu
        exact next st1 valid (fun j _ => by rw [hfs]) (by simp [Verdict.truth]) (fun h => by cases h) h
      · split at h
        · rename_i ht
          split at h
          · rename_i er hl
            simp only [Prod.mk.injEq] at h
            obtain ⟨rfl, rfl, rfl⟩ := h
            unfold landResult at hl
            split at hl
            · rename_i hva
              split at hl
              · cases hl
                rw [hva] at hv
                exact .inr ⟨rfl, i, ups, rfl, fun p hp => List.all_eq_true.1 hv.symm p hp⟩
              · cases hl
            · cases hl
          · rename_i valid' hl
            unfold landResult at hl
            split at hl
            · rename_i hva
              split at hl
              · cases hl
              · rename_i hno
                cases hl
                exact next _ _ (fun j hj => by rw [setFlag_other _ _ hj, hfs]) (by rw [hva]; simp) (fun h => absurd h hno) h
            · rename_i hva
              cases hl
              simp only [Bool.not_eq_true] at hva
              exact next _ _ (fun j hj => by rw [setFlag_other _ _ hj, hfs]) (by rw [hva]; simp) (fun _ => hva) h
        · rename_i ht
          have hva : valid = false := by
            cases hvv : valid with
            | false => rfl
            | true => rw [hfs] at ht; exact absurd (hfl hvv i List.mem_cons_self) ht
          exact next st1 valid (fun j _ => by rw [hfs]) (by rw [hva]; simp) (fun _ => hva) h

/-- How `validate()` ends. -/
theorem validateTree_outcome {env : VEnv I D} (hf : FlagsUntouched env) {fuel : Nat} {root : I} {st : VState I D} {r : VRun I D}
    (h : validateTree env fuel root st = some r) :
    (NoFirstObject (r.downs ++ r.ups) ∧ ((∃ b, r.result = .ok b) ∨
      ∃ er i s s', r.result = .error er ∧ (env.down i s = (s', .error er) ∨ env.up i s = (s', .error er)))) ∨
    (r.result = .error .type ∧ ∃ i rest, r.downs ++ r.ups = rest ++ [(i, .noObj)] ∧ ∀ p ∈ rest, p.2.truth = true) := by
  have hnil : NoFirstObject ([] : List (I × Verdict)) := fun pre i post he => by simp at he
  unfold validateTree at h
  split at h
  · cases h
  · rename_i st1 downs er heq
    cases h
    rcases descend_outcome fuel (by simp) (by simpa using hnil) heq with ⟨h1, h2⟩ | ⟨h1, i, rest, h2, h3⟩
    · refine .inl ⟨by simpa using h1, .inr ?_⟩
      rcases h2 with ⟨b, hb⟩ | ⟨er', i, s, s', hr, hd⟩
      · cases hb
      · exact ⟨er', i, s, s', hr, .inl hd⟩
    · refine .inr ⟨h1, i, rest.reverse, ?_, fun p hp => h3 p (List.mem_reverse.1 hp)⟩
      simp [h2]
  · rename_i st1 downs valid heq
    have hout := descend_outcome fuel (by simp) (by simpa using hnil) heq
    obtain ⟨g1, g2, g3, g4⟩ := descend_flags hf st fuel (by simp) (by simp) (by simp) (by simp) heq
    have hcl : NoFirstObject downs.reverse := by
      rcases hout with ⟨h1, _⟩ | ⟨h1, _⟩
      · exact h1
      · cases h1
    cases hasc : ascend env (downs.map Prod.fst) st1 [] valid with
    | mk s rest =>
      obtain ⟨u, res⟩ := rest
      rw [hasc] at h
      simp only [Option.some.injEq] at h
      subst h
      have := ascend_outcome hf _ g1 (before := downs.reverse) (by simpa using g4) ?_ (by simpa using hcl) hasc
      · rcases this with ⟨h1, h2⟩ | ⟨h1, i, rest, h2, h3⟩
        · refine .inl ⟨h1, ?_⟩
          rcases h2 with ⟨b, hb⟩ | ⟨er', i, s, s', hr, hd⟩
          · exact .inl ⟨b, hb⟩
          · exact .inr ⟨er', i, s, s', hr, .inr hd⟩
        · refine .inr ⟨h1, i, downs.reverse ++ rest, ?_, h3⟩
          simp [h2]
      · intro hva i hi
        obtain ⟨q, hq, hqp⟩ := List.mem_map.1 hi
        rw [← hqp, g2 q.1 q.2 hq, Verdict.flag_truth]
        rw [hva] at g4
        exact List.all_eq_true.1 g4.symm q hq

end Flatland
