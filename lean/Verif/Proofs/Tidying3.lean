import Verif.Proofs.Tidying2
import Verif.Props.Validate
/-! The whole run. -/
namespace Flatland
open Flatland.Spec

variable [Runtime]

omit [Runtime] in
theorem formNow_put {e : Elem} {p : Pos} {k : Elem} (hk : elemAt e p = some k) (hc : containerElem k = true) (d : Pos → Cell) (c : Cell) :
    formNow e (putAt d p c) = formNow e d := by
  unfold formNow
  apply withStates_congr
  intro q n s hq
  unfold putAt
  by_cases hqp : q = p
  · subst hqp; rw [hk] at hq; cases hq; cases hc
  · simp [hqp]

omit [Runtime] in
theorem formNow_get {e : Elem} {p : Pos} {k : Elem} (hk : elemAt e p = some k) (d : Pos → Cell) :
    elemAt (formNow e d) p = some (withStates k fun q => (d (p ++ q)).state) := by
  unfold formNow; rw [elemAt_withStates, hk]; rfl

omit [Runtime] in
theorem scalar_of_not {k : Elem} (h : k ≠ .absent) (hc : containerElem k = false) : ∃ n s, k = .scalar n s := by
  cases k <;> simp_all [containerElem]

omit [Runtime] in
theorem formNow_state {e : Elem} {p : Pos} {n : Option PStr} {s : ScalarState} (hk : elemAt e p = some (.scalar n s)) (d : Pos → Cell) :
    stateAt (formNow e d) p = (d p).state := stateAt_withStates e _ hk

/-- What a run that ends normally did. -/
theorem acting_summary {e : Elem} (he : e ≠ .absent) {rules : Pos → ActRules} {n : Nat} {flag : Pos → Flag} {errors : Pos → List PStr} {r : TidyRun} {b : Bool}
    (h : validateActing e rules n flag errors = some r) (hb : r.result = .ok b) :
    OtherData e r.form ∧ ∃ (ok : Pos → Bool) (down up : Pos → Option PStr),
      (∀ p k, elemAt e p = some k → Treated rules e r.form p k (ok p) (down p) (up p) ∧
        r.flag p = .ofBool (ok p) ∧ r.errors p = plusMessage (plusMessage (errors p) (down p)) (up p)) ∧
      (b = true ↔ ∀ p k, elemAt e p = some k → ok p = true) ∧
      ∀ p, elemAt e p = none → r.flag p = flag p ∧ r.errors p = errors p := by
  unfold validateActing at h
  cases hv : validateTree (actEnv e rules) n [] { flag := flag, data := cellsOf e errors } with
  | none => rw [hv] at h; cases h
  | some vr =>
    rw [hv] at h
    simp only [Option.map_some, Option.some.injEq] at h
    subst h
    simp only at hb ⊢
    have hown := actEnv_own e rules
    have hfl := actEnv_flags e rules
    have hk : StaticKids (actEnv e rules) (childPositions e) := fun _ _ => rfl
    obtain ⟨st1, downs, valid, h1, h2, h3⟩ := validateTree_ok hv hb
    obtain ⟨g1, g2, g3, g4, g5⟩ := validateTree_summary hfl hv hb
    obtain ⟨new, n1, n2, n3, n4, n5⟩ := descend_own hown n h1
    rw [List.append_nil] at n1
    have hsorted := descend_sorted e hk n (.inl ⟨rfl, rfl⟩) (by simp) h1
    have hL : (downs.map Prod.fst).reverse = new.map Prod.fst := by rw [n1, List.map_reverse, List.reverse_reverse]
    rw [hL] at hsorted
    have hdowns : vr.downs = new := by rw [h2, n1, List.reverse_reverse]
    have hverd : ∀ x v, (x, v) ∈ new → v = .yes ∨ v = .no ∨ v = .unevaluated := by
      intro x v hx
      obtain ⟨pre, post, heq⟩ := List.append_of_mem hx
      have := (n5 pre x v post heq).2
      simp only [actDown] at this
      split at this
      · split at this
        · simp only [Except.ok.injEq] at this; exact .inr (.inr this.symm)
        · rcases actList_verdict this with h | h <;> simp [h]
      · rcases actList_verdict this with h | h <;> simp [h]
    have hskip : ∀ i d, (i, d) ∈ vr.downs → ¬ SkipsBelow d := by
      intro i d hd
      rw [hdowns] at hd
      rw [skipsBelow_iff]
      rcases hverd i d hd with rfl | rfl | rfl <;> rfl
    have hvis : ∀ x, x ∈ new.map Prod.fst ↔ (elemAt e x).isSome := by
      intro x
      rw [← hdowns, C34_visits_all (actEnv e rules) (childPositions e) hk n [] _ vr b hv hb hskip x, within_positions he]
    have hisn : (downs.map Prod.fst).Nodup := by
      have : downs.map Prod.fst = (new.map Prod.fst).reverse := by rw [n1, List.map_reverse]
      rw [this, nodup_reverse]; exact n2
    obtain ⟨a1, a2, a3⟩ := ascend_own hown _ hisn h3
    have upSplit : ∀ x, (elemAt e x).isSome → ∃ pre post, downs.map Prod.fst = pre ++ x :: post := by
      intro x hx
      have : x ∈ downs.map Prod.fst := by
        rw [n1, List.map_reverse, List.mem_reverse]; exact (hvis x).2 hx
      exact List.append_of_mem this
    have notin : ∀ {x : Pos} {pre post : List Pos}, downs.map Prod.fst = pre ++ x :: post → x ∉ pre := by
      intro x pre post heq hx
      rw [heq, List.nodup_append] at hisn
      exact hisn.2.2 x hx x (by simp) rfl
    -- scalars are not changed on the way up
    have hscal : ∀ q m s, elemAt e q = some (.scalar m s) → vr.state.data q = st1.data q := by
      intro q m s hq
      obtain ⟨pre, post, heq⟩ := upSplit q (by rw [hq]; rfl)
      have := (a3 pre q post heq).1
      rw [this]
      simp only [actUp, hq, Option.getD_some, containerElem, Bool.false_eq_true, if_false]
      unfold mixData
      rw [if_neg (notin heq)]
    have hform1 : formNow e vr.state.data = formNow e st1.data := by
      unfold formNow
      apply withStates_congr
      intro q m s hq
      rw [hscal q m s hq]
    -- what each element sees
    have hseen : ∀ p v pre post, new = pre ++ (p, v) :: post →
        formNow e (mixData (pre.map Prod.fst) st1.data (cellsOf e errors)) = seenFrom e (formNow e vr.state.data) p := by
      intro p v pre post heq
      unfold seenFrom
      unfold formNow
      apply withStates_congr
      intro q m s hq
      have hqL : q ∈ new.map Prod.fst := (hvis q).2 (by rw [hq]; rfl)
      have := sorted_split (pre := pre.map Prod.fst) (post := post.map Prod.fst) (i := p) hsorted (by rw [heq]; simp) q hqL
      unfold mixData
      by_cases hqp : Earlier q p
      · rw [if_pos hqp, if_pos (this.2 hqp)]
        have := formNow_state hq vr.state.data
        unfold formNow at this
        rw [this, hscal q m s hq]
      · rw [if_neg hqp, if_neg (fun h => hqp (this.1 h))]
        rfl
    have hsplitD : ∀ p, (elemAt e p).isSome → ∃ v pre post, new = pre ++ (p, v) :: post := by
      intro p hp
      obtain ⟨⟨y, v⟩, hyv, rfl⟩ := List.mem_map.1 ((hvis p).2 hp)
      obtain ⟨pre, post, heq⟩ := List.append_of_mem hyv
      exact ⟨v, pre, post, heq⟩
    have key : ∀ p k, elemAt e p = some k → ∃ ok down up, Treated rules e (formNow e vr.state.data) p k ok down up ∧
        vr.state.flag p = .ofBool ok ∧ (vr.state.data p).errors = plusMessage (plusMessage (errors p) down) up ∧
        ∃ d u, (p, d) ∈ vr.downs ∧ (p, u) ∈ vr.ups ∧ ok = (d.truth && u.truth) := by
      intro p k hpk
      have hps : (elemAt e p).isSome := by rw [hpk]; rfl
      obtain ⟨v, pre, post, heq⟩ := hsplitD p hps
      obtain ⟨hdat, hver⟩ := n5 pre p v post heq
      have hmemd : (p, v) ∈ vr.downs := by rw [hdowns, heq]; simp
      have hfresh : mixData (pre.map Prod.fst) st1.data (cellsOf e errors) p = cellsOf e errors p := by
        unfold mixData
        rw [if_neg]
        intro hx
        rw [heq, List.map_append, List.nodup_append] at n2
        exact n2.2.2 p hx p (by simp) rfl
      obtain ⟨preU, postU, heqU⟩ := upSplit p hps
      obtain ⟨hdatU, u, huu, hverU⟩ := a3 preU p postU heqU
      have hfreshU : mixData preU vr.state.data st1.data p = st1.data p := by
        unfold mixData; rw [if_neg (notin heqU)]
      have hflag := g4 p v u hmemd huu
      cases hc : containerElem k with
      | true =>
        have hformU : formNow e (mixData preU vr.state.data st1.data) = formNow e vr.state.data := by
          unfold formNow
          apply withStates_congr
          intro q m s hq
          unfold mixData
          split
          · rfl
          · rw [hscal q m s hq]
        simp only [actUp, hpk, Option.getD_some, hc, if_true] at hdatU hverU
        obtain ⟨okU, textU, j1, j2, j3⟩ := actList_judged (formNow_get hpk _) hverU
        rw [formNow_put hpk hc, hformU] at j1
        rw [← hdatU, hfreshU] at j3
        simp only [actDown, hpk, Option.getD_some, hc, if_true] at hdat hver
        by_cases hde : (rules p).descent = []
        · have hde' : (rules p).descent.isEmpty = true := List.isEmpty_iff.2 hde
          rw [if_pos hde', hfresh] at hdat
          rw [if_pos hde'] at hver
          simp only [Except.ok.injEq] at hver
          refine ⟨okU, .none, textU, ?_, ?_, ?_, v, u, hmemd, huu, ?_⟩
          · unfold Treated
            rw [if_pos hc]
            exact ⟨true, okU, by simp, j1, by rw [if_pos hde]; exact ⟨rfl, rfl⟩⟩
          · rw [hflag, ← hver, j2]
            cases okU <;> rfl
          · rw [j3, hdat]; rfl
          · rw [← hver, j2]; cases okU <;> rfl
        · have hde' : ¬ (rules p).descent.isEmpty = true := fun h => hde (List.isEmpty_iff.1 h)
          rw [if_neg hde'] at hdat hver
          obtain ⟨okD, textD, i1, i2, i3⟩ := actList_judged (formNow_get hpk _) hver
          rw [← hdat, hfresh] at i3
          rw [hseen p v pre post heq] at i1
          refine ⟨okD && okU, textD, textU, ?_, ?_, ?_, v, u, hmemd, huu, ?_⟩
          · unfold Treated
            rw [if_pos hc]
            exact ⟨okD, okU, rfl, j1, by rw [if_neg hde]; exact ⟨_, i1⟩⟩
          · rw [hflag, i2, j2]
            cases okD <;> cases okU <;> rfl
          · rw [j3, i3]; rfl
          · rw [i2, j2]; cases okD <;> cases okU <;> rfl
      | false =>
        obtain ⟨m, s, rfl⟩ := scalar_of_not (elemAt_some_ne hpk) hc
        simp only [actUp, hpk, Option.getD_some, hc, Bool.false_eq_true, if_false, Except.ok.injEq] at hdatU hverU
        simp only [actDown, hpk, Option.getD_some, hc, Bool.false_eq_true, if_false] at hdat hver
        obtain ⟨okD, textD, i1, i2, i3⟩ := actList_judged (formNow_get hpk _) hver
        rw [← hdat, hfresh] at i3
        rw [← hdat, hseen p v pre post heq] at i1
        have hsame := hscal p m s hpk
        refine ⟨okD, textD, .none, ?_, ?_, ?_, v, u, hmemd, huu, ?_⟩
        · unfold Treated
          rw [if_neg (by rw [hc]; simp)]
          refine ⟨rfl, _, i1, ?_⟩
          rw [formNow_state hpk, formNow_state hpk, putAt_same, hsame]
        · rw [hflag, i2, ← hverU]
          cases okD <;> rfl
        · rw [hsame, i3]; rfl
        · rw [i2, ← hverU]; cases okD <;> rfl
    refine ⟨⟨_, rfl⟩, ?_⟩
    have choice : ∀ p, ∃ (t : Bool × Option PStr × Option PStr), ∀ k, elemAt e p = some k →
        Treated rules e (formNow e vr.state.data) p k t.1 t.2.1 t.2.2 ∧
        vr.state.flag p = .ofBool t.1 ∧ (vr.state.data p).errors = plusMessage (plusMessage (errors p) t.2.1) t.2.2 ∧
        ∃ d u, (p, d) ∈ vr.downs ∧ (p, u) ∈ vr.ups ∧ t.1 = (d.truth && u.truth) := by
      intro p
      cases hp : elemAt e p with
      | none => exact ⟨(true, .none, .none), fun k hk => by cases hk⟩
      | some k =>
        obtain ⟨ok, down, up, hh⟩ := key p k hp
        exact ⟨(ok, down, up), fun k' hk' => by cases hk'; exact hh⟩
    obtain ⟨t, ht⟩ := Classical.axiomOfChoice choice
    refine ⟨fun p => (t p).1, fun p => (t p).2.1, fun p => (t p).2.2, fun p k hk => ⟨(ht p k hk).1, (ht p k hk).2.1, (ht p k hk).2.2.1⟩, ?_, ?_⟩
    · rw [C34_conjunction (actEnv e rules) hfl n [] _ vr b hv hb]
      simp only [good_iff]
      constructor
      · rintro ⟨hd, hu⟩ p k hpk
        obtain ⟨_, _, _, d, u, m1, m2, m3⟩ := ht p k hpk
        simp only [m3, hd p d m1, hu p u m2, Bool.and_self]
      · intro hall
        have uniq : ∀ {l : List (Pos × Verdict)}, (l.map Prod.fst).Nodup → ∀ {x v w}, (x, v) ∈ l → (x, w) ∈ l → v = w := by
          intro l
          induction l with
          | nil => intro _ x v w h; cases h
          | cons a l ih =>
            intro hn x v w h1 h2
            rw [List.map_cons, List.nodup_cons] at hn
            rcases List.mem_cons.1 h1 with h1 | h1 <;> rcases List.mem_cons.1 h2 with h2 | h2
            · rw [← h1] at h2; exact (Prod.mk.inj h2).2.symm
            · exact absurd (List.mem_map.2 ⟨_, h2, by rw [← h1]⟩) hn.1
            · exact absurd (List.mem_map.2 ⟨_, h1, by rw [← h2]⟩) hn.1
            · exact ih hn.2 h1 h2
        refine ⟨?_, ?_⟩
        · intro p d hd
          have hps : (elemAt e p).isSome := (hvis p).1 (by rw [← hdowns]; exact List.mem_map.2 ⟨_, hd, rfl⟩)
          obtain ⟨k, hpk⟩ := Option.isSome_iff_exists.1 hps
          obtain ⟨_, _, _, d', u', m1, m2, m3⟩ := ht p k hpk
          have hok := hall p k hpk
          rw [uniq g1 hd m1]
          simp only [m3, Bool.and_eq_true] at hok
          exact hok.1
        · intro p u hu
          have hups : (vr.ups.map Prod.fst).Nodup := by rw [g2, nodup_reverse]; exact g1
          have hps : (elemAt e p).isSome := (hvis p).1 (by
            rw [← hdowns, ← List.mem_reverse, ← g2]; exact List.mem_map.2 ⟨_, hu, rfl⟩)
          obtain ⟨k, hpk⟩ := Option.isSome_iff_exists.1 hps
          obtain ⟨_, _, _, d', u', m1, m2, m3⟩ := ht p k hpk
          have hok := hall p k hpk
          rw [uniq hups hu m2]
          simp only [m3, Bool.and_eq_true] at hok
          exact hok.2
    · intro p hp
      have hnot : p ∉ new.map Prod.fst := by rw [hvis, hp]; simp
      refine ⟨g3 p (by rw [hdowns]; exact hnot), ?_⟩
      have hnot' : p ∉ downs.map Prod.fst := by rw [n1, List.map_reverse, List.mem_reverse]; exact hnot
      rw [a1 p hnot', n4 p hnot]
      rfl

end Flatland
