import Verif.Spec.Tidying
import Verif.Proofs.FormValidation
/-! Lemmas about validation that changes elements. -/
namespace Flatland
open Flatland.Spec

section
variable {I M : Type} [DecidableEq I]

/-- data that are new where something was visited [proof device, no code] -/
def mixData (seen : List I) (new old : I → M) : I → M := fun q => if q ∈ seen then new q else old q

theorem mixData_nil (new old : I → M) : mixData [] new old = old := by funext q; simp [mixData]

/-- Each element changes its own data only, looking at all data. -/
structure OwnEnv (env : VEnv I (I → M)) (fd fu : I → (I → M) → M) (dv uv : I → (I → M) → Except PyErr Verdict) : Prop where
  down : ∀ i st, env.down i st = ({ st with data := putAt st.data i (fd i st.data) }, dv i st.data)
  up : ∀ i st, env.up i st = ({ st with data := putAt st.data i (fu i st.data) }, uv i st.data)

theorem mixData_cons {i : I} {pre : List I} (new old : I → M) (m : M) (hi : i ∉ pre) (hn : new i = m) :
    mixData (i :: pre) new old = mixData pre new (putAt old i m) := by
  funext q
  unfold mixData putAt
  by_cases hq : q = i
  · subst hq; simp [hi, hn]
  · simp [hq]

theorem descend_own {env : VEnv I (I → M)} {fd fu : I → (I → M) → M} {dv uv : I → (I → M) → Except PyErr Verdict} (hl : OwnEnv env fd fu dv uv)
    (n : Nat) {st : VState I (I → M)} {queue : List I} {downs : List (I × Verdict)} {valid : Bool} {st' : VState I (I → M)}
    {downs' : List (I × Verdict)} {b : Bool} (h : descend env n st queue downs valid = some (st', downs', .ok b)) :
    ∃ new : List (I × Verdict), downs' = new.reverse ++ downs ∧ (new.map Prod.fst).Nodup ∧ (∀ x ∈ new.map Prod.fst, x ∉ downs.map Prod.fst) ∧
      (∀ x, x ∉ new.map Prod.fst → st'.data x = st.data x) ∧
      ∀ pre i v post, new = pre ++ (i, v) :: post →
        st'.data i = fd i (mixData (pre.map Prod.fst) st'.data st.data) ∧ dv i (mixData (pre.map Prod.fst) st'.data st.data) = .ok v := by
  induction n generalizing st queue downs valid with
  | zero => simp [descend] at h
  | succ n ih =>
    cases queue with
    | nil =>
      simp only [descend, Option.some.injEq, Prod.mk.injEq] at h
      obtain ⟨rfl, rfl, _⟩ := h
      exact ⟨[], by simp, by simp, by simp, fun _ _ => rfl, fun pre i v post h => absurd h (by simp)⟩
    | cons i queue =>
      rw [descend] at h
      by_cases hi : i ∈ downs.map Prod.fst
      · rw [if_pos hi] at h
        exact ih h
      · rw [if_neg hi, hl.down i] at h
        cases hv : dv i st.data with
        | error er => rw [hv] at h; simp at h
        | ok v =>
          rw [hv] at h
          simp only at h
          cases hland : landDown valid v with
          | error er => rw [hland] at h; simp at h
          | ok valid' =>
            rw [hland] at h
            simp only at h
            obtain ⟨new, g1, g2, g3, g4, g5⟩ := ih h
            have hin : i ∉ new.map Prod.fst := fun hx => g3 i hx (by simp)
            have hnow : st'.data i = fd i st.data := by
              rw [g4 i hin]; simp [VState.setFlag, putAt_same]
            refine ⟨(i, v) :: new, by simp [g1], ?_, ?_, ?_, ?_⟩
            · rw [List.map_cons, List.nodup_cons]; exact ⟨hin, g2⟩
            · intro x hx
              rw [List.map_cons, List.mem_cons] at hx
              rcases hx with rfl | hx
              · exact hi
              · intro hxd
                exact g3 x hx (by rw [List.map_cons]; exact List.mem_cons_of_mem _ hxd)
            · intro x hx
              rw [List.map_cons, List.mem_cons, not_or] at hx
              rw [g4 x hx.2]
              simp [VState.setFlag, putAt_other _ _ hx.1]
            · intro pre j w post heq
              cases pre with
              | nil =>
                simp only [List.nil_append, List.cons.injEq, Prod.mk.injEq] at heq
                obtain ⟨⟨rfl, rfl⟩, rfl⟩ := heq
                rw [List.map_nil, mixData_nil]
                exact ⟨hnow, hv⟩
              | cons a pre =>
                simp only [List.cons_append, List.cons.injEq] at heq
                obtain ⟨rfl, heq⟩ := heq
                have hip : i ∉ pre.map Prod.fst := by
                  intro hx; apply hin; rw [heq]; simp only [List.map_append, List.mem_append]; exact .inl hx
                have := g5 pre j w post heq
                rw [List.map_cons, mixData_cons _ _ _ hip hnow]
                simpa [VState.setFlag] using this

theorem ascend_own {env : VEnv I (I → M)} {fd fu : I → (I → M) → M} {dv uv : I → (I → M) → Except PyErr Verdict} (hl : OwnEnv env fd fu dv uv)
    (is : List I) (hn : is.Nodup) {st : VState I (I → M)} {ups : List (I × Verdict)} {valid : Bool} {st' : VState I (I → M)}
    {ups' : List (I × Verdict)} {b : Bool} (h : ascend env is st ups valid = (st', ups', .ok b)) :
    (∀ x, x ∉ is → st'.data x = st.data x) ∧ (∀ u ∈ ups, u ∈ ups') ∧
      ∀ pre i post, is = pre ++ i :: post →
        st'.data i = fu i (mixData pre st'.data st.data) ∧ ∃ v, (i, v) ∈ ups' ∧ uv i (mixData pre st'.data st.data) = .ok v := by
  induction is generalizing st ups valid with
  | nil =>
    simp only [ascend, Prod.mk.injEq] at h
    obtain ⟨rfl, rfl, _⟩ := h
    exact ⟨fun _ _ => rfl, fun _ hu => hu, fun pre i post h => absurd h (by simp)⟩
  | cons i is ih =>
    rw [List.nodup_cons] at hn
    rw [ascend, hl.up i] at h
    have finish : ∀ (v : Verdict) (st1 : VState I (I → M)), uv i st.data = .ok v → st1.data = putAt st.data i (fu i st.data) →
        ((∀ x, x ∉ is → st'.data x = st1.data x) ∧ (∀ u ∈ ups ++ [(i, v)], u ∈ ups') ∧
          ∀ pre i post, is = pre ++ i :: post →
            st'.data i = fu i (mixData pre st'.data st1.data) ∧ ∃ v, (i, v) ∈ ups' ∧ uv i (mixData pre st'.data st1.data) = .ok v) →
        (∀ x, x ∉ i :: is → st'.data x = st.data x) ∧ (∀ u ∈ ups, u ∈ ups') ∧
          ∀ pre j post, i :: is = pre ++ j :: post →
            st'.data j = fu j (mixData pre st'.data st.data) ∧ ∃ v, (j, v) ∈ ups' ∧ uv j (mixData pre st'.data st.data) = .ok v := by
      rintro v st1 hv hst ⟨g1, g2, g3⟩
      have hnow : st'.data i = fu i st.data := by rw [g1 i hn.1, hst, putAt_same]
      refine ⟨?_, fun u hu => g2 u (by simp [hu]), ?_⟩
      · intro x hx
        rw [List.mem_cons, not_or] at hx
        rw [g1 x hx.2, hst, putAt_other _ _ hx.1]
      · intro pre j post heq
        cases pre with
        | nil =>
          simp only [List.nil_append, List.cons.injEq] at heq
          obtain ⟨rfl, rfl⟩ := heq
          rw [mixData_nil]
          exact ⟨hnow, v, g2 _ (by simp), hv⟩
        | cons a pre =>
          simp only [List.cons_append, List.cons.injEq] at heq
          obtain ⟨rfl, heq⟩ := heq
          have hip : i ∉ pre := by
            intro hx; apply hn.1; rw [heq]; exact List.mem_append.2 (.inl hx)
          rw [mixData_cons _ _ _ hip hnow, ← hst]
          exact g3 pre j post heq
    cases hv : uv i st.data with
    | error er => rw [hv] at h; simp at h
    | ok v =>
      rw [hv] at h
      simp only at h
      by_cases hun : v = .unevaluated
      · rw [if_pos hun] at h
        exact finish v _ hv rfl (ih hn.2 h)
      · rw [if_neg hun] at h
        by_cases hf : (st.flag i).truth = true
        · rw [if_pos hf] at h
          cases hland : landResult valid v with
          | error er => rw [hland] at h; simp at h
          | ok valid' =>
            rw [hland] at h
            exact finish v _ hv rfl (ih hn.2 h)
        · rw [if_neg hf] at h
          exact finish v _ hv rfl (ih hn.2 h)

end

/-! ### the order of the visits -/

theorem earlier_trans {a b c : Pos} (h : Earlier a b) (h' : Earlier b c) : Earlier a c := by
  unfold Earlier at *
  rcases h with h | ⟨h1, h2⟩ <;> rcases h' with h' | ⟨h3, h4⟩
  · left; omega
  · left; omega
  · left; omega
  · exact .inr ⟨by omega, List.lt_trans h2 h4⟩

theorem earlier_irrefl (a : Pos) : ¬ Earlier a a := by
  rintro (h | ⟨_, h⟩)
  · omega
  · exact List.lt_irrefl a h

theorem lt_snoc : ∀ {q p : Pos}, q.length = p.length → q < p → ∀ a b, q ++ [a] < p ++ [b]
  | [], [], _, h, _, _ => absurd h (List.lt_irrefl _)
  | i :: q, j :: p, hl, h, a, b => by
    rw [List.cons_append, List.cons_append, List.cons_lt_cons_iff]
    rcases List.cons_lt_cons_iff.1 h with h | ⟨h1, h2⟩
    · exact .inl h
    · exact .inr ⟨h1, lt_snoc (by simpa using hl) h2 a b⟩

theorem lt_snoc_same : ∀ (p : Pos) {a b : Nat}, a < b → p ++ [a] < p ++ [b]
  | [], a, b, h => by simpa using List.cons_lt_cons_iff.2 (.inl h)
  | i :: p, a, b, h => by
    rw [List.cons_append, List.cons_append, List.cons_lt_cons_iff]
    exact .inr ⟨rfl, lt_snoc_same p h⟩

theorem earlier_snoc {q p : Pos} (h : Earlier q p) (a b : Nat) : Earlier (q ++ [a]) (p ++ [b]) := by
  unfold Earlier at *
  simp only [List.length_append, List.length_singleton]
  rcases h with h | ⟨h1, h2⟩
  · left; omega
  · exact .inr ⟨by omega, lt_snoc h1 h2 a b⟩

theorem earlier_child (p : Pos) (j : Nat) : Earlier p (p ++ [j]) := .inl (by simp)

theorem childPositions_sorted (e : Elem) (p : Pos) : (childPositions e p).Pairwise Earlier := by
  unfold childPositions nodeChildren
  simp only [Bool.false_eq_true, if_false]
  cases elemAt e p with
  | none => simp
  | some k =>
    simp only
    rw [List.pairwise_map]
    refine List.Pairwise.filterMap _ (R := (· < ·)) ?_ List.pairwise_lt_range
    intro a b hab x hx y hy
    cases ha : k.kids[a]? with
    | none => rw [ha] at hx; cases hx
    | some ka =>
      cases hb : k.kids[b]? with
      | none => rw [hb] at hy; cases hy
      | some kb =>
        rw [ha] at hx; rw [hb] at hy
        simp only at hx hy
        split at hx
        · split at hy
          · cases hx; cases hy
            exact .inr ⟨by simp, lt_snoc_same p hab⟩
          · cases hy
        · cases hx

/-- on the way down the elements are visited from the left to the right, level by level -/
theorem descend_sorted {D : Type} {env : VEnv Pos D} (e : Elem) (hk : StaticKids env (childPositions e)) (n : Nat) {st : VState Pos D} {queue : List Pos}
    {downs : List (Pos × Verdict)} {valid : Bool} {st' : VState Pos D} {downs' : List (Pos × Verdict)} {b : Bool}
    (hq : (downs = [] ∧ queue = [[]]) ∨ ∀ x ∈ queue, ∃ y ∈ downs.map Prod.fst, ∃ j, x = y ++ [j])
    (hs : ((downs.map Prod.fst).reverse ++ queue).Pairwise Earlier)
    (h : descend env n st queue downs valid = some (st', downs', .ok b)) : ((downs'.map Prod.fst).reverse).Pairwise Earlier := by
  induction n generalizing st queue downs valid with
  | zero => simp [descend] at h
  | succ n ih =>
    cases queue with
    | nil =>
      simp only [descend, Option.some.injEq, Prod.mk.injEq] at h
      obtain ⟨_, rfl, _⟩ := h
      simpa using hs
    | cons i queue =>
      rw [List.pairwise_append, List.pairwise_cons] at hs
      obtain ⟨hs1, ⟨hs2, hs3⟩, hs4⟩ := hs
      rw [descend] at h
      split at h
      · rename_i hi
        exact absurd (hs4 i (by rw [List.mem_reverse]; exact hi) i (by simp)) (earlier_irrefl i)
      · split at h
        · simp at h
        · rename_i st1 v heq
          simp only at h
          split at h
          · simp at h
          · rw [hk] at h
            have hold : ∀ x ∈ queue, ∃ y ∈ downs.map Prod.fst, ∃ j, x = y ++ [j] := by
              rcases hq with ⟨rfl, hq⟩ | hq
              · simp only [List.cons.injEq] at hq; rw [hq.2]; simp
              · exact fun x hx => hq x (by simp [hx])
            refine ih ?_ ?_ h
            · refine .inr fun x hx => ?_
              have : x ∈ queue ∨ x ∈ childPositions e i := by
                split at hx
                · exact .inl hx
                · exact List.mem_append.1 hx
              rcases this with hx | hx
              · obtain ⟨y, hy, j, rfl⟩ := hold x hx
                exact ⟨y, by rw [List.map_cons]; exact List.mem_cons_of_mem _ hy, j, rfl⟩
              · obtain ⟨j, rfl, _⟩ := mem_childPositions.1 hx
                exact ⟨i, by simp, j, rfl⟩
            · have hfirst : ((downs.map Prod.fst).reverse ++ [i] ++ queue).Pairwise Earlier := by
                rw [List.append_assoc, List.pairwise_append]
                exact ⟨hs1, by rw [List.singleton_append, List.pairwise_cons]; exact ⟨hs2, hs3⟩, by simpa using hs4⟩
              rw [List.map_cons, List.reverse_cons]
              split
              · exact hfirst
              · rw [← List.append_assoc, List.pairwise_append]
                refine ⟨hfirst, childPositions_sorted e i, ?_⟩
                intro x hx c hc
                obtain ⟨j, rfl, _⟩ := mem_childPositions.1 hc
                simp only [List.mem_append, List.mem_singleton] at hx
                rcases hx with (hx | rfl) | hx
                · exact earlier_trans (hs4 x hx i (by simp)) (earlier_child i j)
                · exact earlier_child x j
                · obtain ⟨y, hy, j', rfl⟩ := hold x hx
                  exact earlier_snoc (hs4 y (by rw [List.mem_reverse]; exact hy) i (by simp)) j' j

/-- in a sorted list those in front of an element are the earlier ones -/
theorem sorted_split {l pre post : List Pos} {i : Pos} (hs : l.Pairwise Earlier) (h : l = pre ++ i :: post) (q : Pos) (hq : q ∈ l) :
    q ∈ pre ↔ Earlier q i := by
  subst h
  rw [List.pairwise_append, List.pairwise_cons] at hs
  obtain ⟨h1, ⟨h2, h3⟩, h4⟩ := hs
  constructor
  · intro h; exact h4 q h i (by simp)
  · intro h
    simp only [List.mem_append, List.mem_cons] at hq
    rcases hq with hq | rfl | hq
    · exact hq
    · exact absurd h (earlier_irrefl _)
    · exact absurd (earlier_trans h (h2 q hq)) (earlier_irrefl _)

/-! ### forms with other states -/

mutual
theorem withStates_congr : ∀ (e : Elem) (d d' : Pos → ScalarState), (∀ q n s, elemAt e q = some (.scalar n s) → d q = d' q) → withStates e d = withStates e d'
  | .scalar n s, d, d', h => by rw [withStates, withStates, h [] n s rfl]
  | .dict n ks, d, d', h => by
    rw [withStates, withStates, withStatesAll_congr 0 ks d d' fun i k hk q n s hq => h ((0 + i) :: q) n s (by simpa [elemAt, Elem.kids, hk] using hq)]
  | .list n ks, d, d', h => by
    rw [withStates, withStates, withStatesAll_congr 0 ks d d' fun i k hk q n s hq => h ((0 + i) :: q) n s (by simpa [elemAt, Elem.kids, hk] using hq)]
  | .array n ks, d, d', h => by
    rw [withStates, withStates, withStatesAll_congr 0 ks d d' fun i k hk q n s hq => h ((0 + i) :: q) n s (by simpa [elemAt, Elem.kids, hk] using hq)]
  | .absent, d, d', _ => by rw [withStates, withStates]
theorem withStatesAll_congr : ∀ (i : Nat) (ks : List Elem) (d d' : Pos → ScalarState),
    (∀ (j : Nat) (k : Elem), ks[j]? = some k → ∀ q n s, elemAt k q = some (.scalar n s) → d ((i + j) :: q) = d' ((i + j) :: q)) →
      withStatesAll i ks d = withStatesAll i ks d'
  | i, [], d, d', _ => by rw [withStatesAll, withStatesAll]
  | i, k :: ks, d, d', h => by
    rw [withStatesAll, withStatesAll,
      withStates_congr k (fun q => d (i :: q)) (fun q => d' (i :: q)) fun q n s hq => h 0 k rfl q n s hq,
      withStatesAll_congr (i + 1) ks d d' fun j k' hk q n s hq => by
        have := h (j + 1) k' (by simpa using hk) q n s hq
        rwa [show i + (j + 1) = i + 1 + j by omega] at this]
end

theorem withStatesAll_get (i : Nat) (ks : List Elem) (d : Pos → ScalarState) (j : Nat) :
    (withStatesAll i ks d)[j]? = (ks[j]?).map fun k => withStates k fun q => d ((i + j) :: q) := by
  induction ks generalizing i j with
  | nil => simp [withStatesAll]
  | cons k ks ih =>
    rw [withStatesAll]
    cases j with
    | zero => simp
    | succ j => simp only [List.getElem?_cons_succ, ih]; rw [show i + 1 + j = i + (j + 1) by omega]

theorem withStates_kids (e : Elem) (d : Pos → ScalarState) (j : Nat) :
    (withStates e d).kids[j]? = (e.kids[j]?).map fun k => withStates k fun q => d (j :: q) := by
  cases e <;> simp [withStates, Elem.kids, withStatesAll_get]

theorem withStates_absent {e : Elem} {d : Pos → ScalarState} : withStates e d = .absent ↔ e = .absent := by
  cases e <;> simp [withStates]

theorem elemAt_withStates (e : Elem) (d : Pos → ScalarState) (p : Pos) :
    elemAt (withStates e d) p = (elemAt e p).map fun k => withStates k fun q => d (p ++ q) := by
  induction p generalizing e d with
  | nil =>
    by_cases he : e = .absent
    · subst he; simp [withStates, elemAt]
    · rw [elemAt_nil e he, elemAt_nil _ (fun h => he (withStates_absent.1 h))]; simp
  | cons i p ih =>
    by_cases he : e = .absent
    · subst he; simp [withStates, elemAt]
    · rw [elemAt_cons e i p he, elemAt_cons _ i p (fun h => he (withStates_absent.1 h)), withStates_kids]
      cases e.kids[i]? with
      | none => rfl
      | some k => simp [ih]

theorem stateAt_withStates (e : Elem) (d : Pos → ScalarState) {p : Pos} {n : Option PStr} {s : ScalarState} (h : elemAt e p = some (.scalar n s)) :
    stateAt (withStates e d) p = d p := by
  unfold stateAt
  rw [elemAt_withStates, h]
  simp [withStates, Elem.state]

theorem withStates_scalar {e : Elem} {d : Pos → ScalarState} {p : Pos} {n : Option PStr} {s : ScalarState}
    (h : elemAt (withStates e d) p = some (.scalar n s)) : ∃ s', elemAt e p = some (.scalar n s') := by
  rw [elemAt_withStates] at h
  cases hp : elemAt e p with
  | none => rw [hp] at h; cases h
  | some k =>
    rw [hp] at h
    cases k <;> simp [withStates] at h
    exact ⟨_, by rw [h.1]⟩

theorem stateAt_scalar {e : Elem} {p : Pos} {n : Option PStr} {s : ScalarState} (h : elemAt e p = some (.scalar n s)) : stateAt e p = s := by
  simp [stateAt, h, Elem.state]

theorem withStates_self (e : Elem) : withStates e (stateAt e) = e := by
  have key : ∀ (e : Elem) (d : Pos → ScalarState), (∀ q n s, elemAt e q = some (.scalar n s) → d q = s) → withStates e d = e := by
    intro e
    induction e using Elem.rec (motive_2 := fun ks => ∀ (i : Nat) (d : Pos → ScalarState),
      (∀ (j : Nat) (k : Elem), ks[j]? = some k → ∀ q n s, elemAt k q = some (.scalar n s) → d ((i + j) :: q) = s) → withStatesAll i ks d = ks) with
    | scalar n s => intro d h; rw [withStates, h [] n s rfl]
    | dict n ks ih => intro d h; rw [withStates, ih 0 d fun j k hk q n s hq => h _ n s (by simpa [elemAt, Elem.kids, hk] using hq)]
    | list n ks ih => intro d h; rw [withStates, ih 0 d fun j k hk q n s hq => h _ n s (by simpa [elemAt, Elem.kids, hk] using hq)]
    | array n ks ih => intro d h; rw [withStates, ih 0 d fun j k hk q n s hq => h _ n s (by simpa [elemAt, Elem.kids, hk] using hq)]
    | absent => intro d _; rw [withStates]
    | nil i d h => rw [withStatesAll]
    | cons k ks ihk ihks i d h =>
      rw [withStatesAll, ihk (fun q => d (i :: q)) fun q n s hq => h 0 k rfl q n s hq, ihks (i + 1) d fun j k' hk q n s hq => by
        have := h (j + 1) k' (by simpa using hk) q n s hq
        rwa [show i + (j + 1) = i + 1 + j by omega] at this]
  exact key e _ fun q n s h => stateAt_scalar h

mutual
theorem withStates_twice : ∀ (e : Elem) (d d' : Pos → ScalarState), withStates (withStates e d) d' = withStates e d'
  | .scalar n s, d, d' => by simp [withStates]
  | .dict n ks, d, d' => by simp [withStates, withStatesAll_twice 0 ks d d']
  | .list n ks, d, d' => by simp [withStates, withStatesAll_twice 0 ks d d']
  | .array n ks, d, d' => by simp [withStates, withStatesAll_twice 0 ks d d']
  | .absent, d, d' => by simp [withStates]
theorem withStatesAll_twice : ∀ (i : Nat) (ks : List Elem) (d d' : Pos → ScalarState), withStatesAll i (withStatesAll i ks d) d' = withStatesAll i ks d'
  | i, [], d, d' => by simp [withStatesAll]
  | i, k :: ks, d, d' => by simp [withStatesAll, withStates_twice k, withStatesAll_twice (i + 1) ks d d']
end

end Flatland
