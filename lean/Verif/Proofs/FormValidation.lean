import Verif.Spec.FormValidation
import Verif.Proofs.Validate
import Verif.Proofs.Nodes
import Verif.Proofs.Validators
import Verif.Proofs.Messages
/-! Lemmas about the validation of whole trees. -/
namespace Flatland
open Flatland.Spec

theorem isContainer_eq (k : Elem) : isContainerElem k = containerElem k := by cases k <;> rfl

/-! ### environments whose elements only change their own data -/

variable {I M : Type} [DecidableEq I]

/-- data changed at one place [proof device, no code] -/
def putAt (d : I → M) (i : I) (m : M) : I → M := fun j => if j = i then m else d j

theorem putAt_same (d : I → M) (i : I) (m : M) : putAt d i m i = m := by simp [putAt]
theorem putAt_other (d : I → M) {i j : I} (m : M) (h : j ≠ i) : putAt d i m j = d j := by simp [putAt, h]

/-- Each of the elements `P` (closed under children) has fixed results, and changes its own data only, in a way that depends on these only. -/
structure LocalEnv (env : VEnv I (I → M)) (P : I → Prop) (fd fu : I → M → M) (dv uv : I → Verdict) : Prop where
  flags : FlagsUntouched env
  closed : ∀ st i, P i → ∀ x ∈ env.children st i, P x
  down : ∀ i, P i → ∀ st, env.down i st = ({ st with data := putAt st.data i (fd i (st.data i)) }, .ok (dv i))
  up : ∀ i, P i → ∀ st, env.up i st = ({ st with data := putAt st.data i (fu i (st.data i)) }, .ok (uv i))
  downObj : ∀ i, P i → dv i ≠ .noObj
  upObj : ∀ i, P i → uv i ≠ .noObj

theorem landDown_ok (b : Bool) {v : Verdict} (h : v ≠ .noObj) : ∃ b', landDown b v = .ok b' := by
  unfold landDown landResult
  cases b <;> cases v <;> simp_all

theorem landResult_ok (b : Bool) {v : Verdict} (h : v ≠ .noObj) : ∃ b', landResult b v = .ok b' := by
  unfold landResult
  cases b <;> cases v <;> simp_all

theorem descend_local {env : VEnv I (I → M)} {P : I → Prop} {fd fu : I → M → M} {dv uv : I → Verdict} (hl : LocalEnv env P fd fu dv uv) (n : Nat)
    {st : VState I (I → M)} {queue : List I} {downs : List (I × Verdict)} {valid : Bool} {st' : VState I (I → M)}
    {downs' : List (I × Verdict)} {res : Except PyErr Bool} (hq : ∀ x ∈ queue, P x) (hd : ∀ p ∈ downs, P p.1 ∧ p.2 = dv p.1)
    (h : descend env n st queue downs valid = some (st', downs', res)) :
    (∃ b, res = .ok b) ∧ (∀ p ∈ downs', P p.1 ∧ p.2 = dv p.1) ∧ (∀ x ∈ downs.map Prod.fst, x ∈ downs'.map Prod.fst) ∧
      (∀ x, x ∈ downs'.map Prod.fst → x ∉ downs.map Prod.fst → st'.data x = fd x (st.data x)) ∧
      ∀ x, (x ∉ downs'.map Prod.fst ∨ x ∈ downs.map Prod.fst) → st'.data x = st.data x := by
  induction n generalizing st queue downs valid with
  | zero => simp [descend] at h
  | succ n ih =>
    cases queue with
    | nil =>
      simp only [descend, Option.some.injEq, Prod.mk.injEq] at h
      obtain ⟨rfl, rfl, rfl⟩ := h
      exact ⟨⟨_, rfl⟩, hd, fun _ hx => hx, fun x h1 h2 => absurd h1 h2, fun _ _ => rfl⟩
    | cons i queue =>
      have hPi : P i := hq i (by simp)
      rw [descend] at h
      by_cases hi : i ∈ downs.map Prod.fst
      · rw [if_pos hi] at h
        exact ih (fun x hx => hq x (by simp [hx])) hd h
      · rw [if_neg hi, hl.down i hPi] at h
        simp only at h
        obtain ⟨b', hb'⟩ := landDown_ok valid (hl.downObj i hPi)
        rw [hb'] at h
        simp only at h
        have hd' : ∀ p ∈ (i, dv i) :: downs, P p.1 ∧ p.2 = dv p.1 := by
          intro p hp
          rcases List.mem_cons.1 hp with rfl | hp
          · exact ⟨hPi, rfl⟩
          · exact hd p hp
        obtain ⟨h1, h2, h3, h4, h5⟩ := ih (by
          intro x hx
          split at hx
          · exact hq x (by simp [hx])
          · rcases List.mem_append.1 hx with hx | hx
            · exact hq x (by simp [hx])
            · exact hl.closed _ i hPi x hx) hd' h
        have hmem : i ∈ downs'.map Prod.fst := h3 i (by simp)
        refine ⟨h1, h2, fun x hx => h3 x (by simp only [List.map_cons, List.mem_cons]; exact .inr hx), ?_, ?_⟩
        · intro x hx hxd
          by_cases hxi : x = i
          · subst hxi
            rw [h5 x (.inr (by simp))]
            simp [VState.setFlag, putAt_same]
          · rw [h4 x hx (by simp only [List.map_cons, List.mem_cons]; exact fun h => h.elim hxi hxd)]
            simp [VState.setFlag, putAt_other _ _ hxi]
        · intro x hx
          have hxi : x ≠ i := by
            rintro rfl
            rcases hx with hx | hx
            · exact hx hmem
            · exact hi hx
          rw [h5 x (hx.imp id fun h => by simp only [List.map_cons, List.mem_cons]; exact .inr h)]
          simp [VState.setFlag, putAt_other _ _ hxi]

theorem ascend_local {env : VEnv I (I → M)} {P : I → Prop} {fd fu : I → M → M} {dv uv : I → Verdict} (hl : LocalEnv env P fd fu dv uv) (is : List I)
    (hn : is.Nodup) (hq : ∀ x ∈ is, P x) {st : VState I (I → M)} {ups : List (I × Verdict)} {valid : Bool} {st' : VState I (I → M)}
    {ups' : List (I × Verdict)} {res : Except PyErr Bool} (hu : ∀ p ∈ ups, p.2 = uv p.1)
    (h : ascend env is st ups valid = (st', ups', res)) :
    (∃ b, res = .ok b) ∧ (∀ p ∈ ups', p.2 = uv p.1) ∧
      (∀ x ∈ is, st'.data x = fu x (st.data x)) ∧ ∀ x, x ∉ is → st'.data x = st.data x := by
  induction is generalizing st ups valid with
  | nil =>
    simp only [ascend, Prod.mk.injEq] at h
    obtain ⟨rfl, rfl, rfl⟩ := h
    exact ⟨⟨_, rfl⟩, hu, by simp, fun _ _ => rfl⟩
  | cons i is ih =>
    rw [List.nodup_cons] at hn
    have hPi : P i := hq i (by simp)
    have hq' : ∀ x ∈ is, P x := fun x hx => hq x (by simp [hx])
    have hu' : ∀ p ∈ ups ++ [(i, uv i)], p.2 = uv p.1 := by
      intro p hp
      rcases List.mem_append.1 hp with hp | hp
      · exact hu p hp
      · simp only [List.mem_singleton] at hp; subst hp; rfl
    have finish : ∀ (st1 : VState I (I → M)), st1.data = putAt st.data i (fu i (st.data i)) →
        ((∃ b, res = .ok b) ∧ (∀ p ∈ ups', p.2 = uv p.1) ∧
          (∀ x ∈ is, st'.data x = fu x (st1.data x)) ∧ ∀ x, x ∉ is → st'.data x = st1.data x) →
        (∃ b, res = .ok b) ∧ (∀ p ∈ ups', p.2 = uv p.1) ∧
          (∀ x ∈ i :: is, st'.data x = fu x (st.data x)) ∧ ∀ x, x ∉ i :: is → st'.data x = st.data x := by
      rintro st1 hst ⟨g1, g2, g3, g4⟩
      refine ⟨g1, g2, ?_, ?_⟩
      · intro x hx
        rcases List.mem_cons.1 hx with rfl | hx
        · rw [g4 x hn.1, hst, putAt_same]
        · have hxi : x ≠ i := fun heq => hn.1 (heq ▸ hx)
          rw [g3 x hx, hst, putAt_other _ _ hxi]
      · intro x hx
        simp only [List.mem_cons, not_or] at hx
        rw [g4 x hx.2, hst, putAt_other _ _ hx.1]
    rw [ascend, hl.up i hPi] at h
    simp only at h
    by_cases hun : uv i = .unevaluated
    · rw [if_pos hun] at h
      exact finish _ rfl (ih hn.2 hq' hu' h)
    · rw [if_neg hun] at h
      obtain ⟨b', hb'⟩ := landResult_ok valid (hl.upObj i hPi)
      by_cases hf : (st.flag i).truth = true
      · rw [if_pos hf, hb'] at h
        exact finish _ rfl (ih hn.2 hq' hu' h)
      · rw [if_neg hf] at h
        exact finish _ rfl (ih hn.2 hq' hu' h)

/-- A run in such an environment. -/
theorem validateTree_local {env : VEnv I (I → M)} {P : I → Prop} {fd fu : I → M → M} {dv uv : I → Verdict} (hl : LocalEnv env P fd fu dv uv)
    {n : Nat} {root : I} (hroot : P root) {st : VState I (I → M)} {r : VRun I (I → M)} (h : validateTree env n root st = some r) :
    (∃ b, r.result = .ok b) ∧ (∀ p ∈ r.downs, p.2 = dv p.1) ∧ (∀ p ∈ r.ups, p.2 = uv p.1) ∧
      (∀ x ∈ r.downs.map Prod.fst, r.state.data x = fu x (fd x (st.data x))) ∧
      ∀ x, x ∉ r.downs.map Prod.fst → r.state.data x = st.data x := by
  unfold validateTree at h
  cases hdesc : descend env n st [root] [] true with
  | none => rw [hdesc] at h; cases h
  | some out =>
    obtain ⟨st1, downs, res⟩ := out
    rw [hdesc] at h
    obtain ⟨⟨b, rfl⟩, h2, h3, h4, h5⟩ := descend_local hl n (by simpa using hroot) (by simp) hdesc
    simp only at h
    have hnd := (descend_flags hl.flags st n (by simp) (by simp) (by simp) (by simp) hdesc).1
    have hP : ∀ x ∈ downs.map Prod.fst, P x := by
      intro x hx
      obtain ⟨p, hp, rfl⟩ := List.mem_map.1 hx
      exact (h2 p hp).1
    cases hasc : ascend env (downs.map Prod.fst) st1 [] b with
    | mk s rest =>
      obtain ⟨u, res'⟩ := rest
      obtain ⟨⟨b', rfl⟩, a2, a3, a4⟩ := ascend_local hl _ hnd hP (by simp) hasc
      rw [hasc] at h
      simp only [Option.some.injEq] at h
      subst h
      refine ⟨⟨_, rfl⟩, fun p hp => (h2 p (by simpa using hp)).2, a2, ?_, ?_⟩
      · intro x hx
        have hx' : x ∈ downs.map Prod.fst := by simpa using hx
        simp only
        rw [a3 x hx', h4 x hx' (by simp)]
      · intro x hx
        have hx' : x ∉ downs.map Prod.fst := by simpa using hx
        simp only
        rw [a4 x hx', h5 x (.inl hx')]

/-! ### positions -/

theorem mem_childPositions {e : Elem} {p q : Pos} :
    q ∈ childPositions e p ↔ ∃ i, q = p ++ [i] ∧ (elemAt e q).isSome := by
  unfold childPositions nodeChildren
  simp only [Bool.false_eq_true, if_false]
  cases hp : elemAt e p with
  | none =>
    simp only [List.map_nil, List.not_mem_nil, false_iff]
    rintro ⟨i, rfl, h⟩
    have := elemAt_prefix h
    rw [hp] at this; cases this
  | some k =>
    simp only [List.mem_map, List.mem_filterMap, List.mem_range]
    constructor
    · rintro ⟨nd, ⟨i, hi, hnd⟩, rfl⟩
      have hk : k.kids[i]? = some k.kids[i] := List.getElem?_eq_getElem hi
      rw [hk] at hnd
      simp only at hnd
      split at hnd
      · rename_i hpres
        cases hnd
        refine ⟨i, rfl, ?_⟩
        rw [elemAt_snoc e p i hp, hk]
        simp [elemAt_self (present_iff.1 hpres)]
      · cases hnd
    · rintro ⟨i, rfl, h⟩
      rw [elemAt_snoc e p i hp] at h
      cases hk : k.kids[i]? with
      | none => rw [hk] at h; cases h
      | some c =>
        rw [hk] at h
        have hi : i < k.kids.length := by
          rcases Nat.lt_or_ge i k.kids.length with hi | hi
          · exact hi
          · rw [List.getElem?_eq_none hi] at hk; cases hk
        have hc : c.present = true := by
          rw [present_iff]; rintro rfl; simp [elemAt_absent] at h
        exact ⟨⟨p ++ [i], false⟩, ⟨i, hi, by rw [hk]; simp [hc]⟩, rfl⟩

theorem childPositions_tree (e : Elem) : IsTree (childPositions e) [] := by
  constructor
  · intro p h
    obtain ⟨i, hi, _⟩ := mem_childPositions.1 h
    simp at hi
  · intro p q x hx hy
    obtain ⟨i, rfl, _⟩ := mem_childPositions.1 hx
    obtain ⟨j, hj, _⟩ := mem_childPositions.1 hy
    exact (List.append_inj' hj rfl).1

theorem kid_size {e c : Elem} {i : Nat} (h : e.kids[i]? = some c) : c.size < e.size := by
  have key : ∀ (ks : List Elem) (i : Nat), ks[i]? = some c → c.size ≤ sizeList ks := by
    intro ks
    induction ks with
    | nil => simp
    | cons k ks ih =>
      intro i hi
      rw [sizeList]
      cases i with
      | zero => simp at hi; subst hi; omega
      | succ i => have := ih i (by simpa using hi); omega
  cases e with
  | dict _ ks => have := key ks i h; simp only [Elem.size]; omega
  | list _ ks => have := key ks i h; simp only [Elem.size]; omega
  | array _ ks => have := key ks i h; simp only [Elem.size]; omega
  | scalar _ _ => simp [Elem.kids] at h
  | absent => simp [Elem.kids] at h

theorem pos_depth : ∀ (q : Pos) (e : Elem), (elemAt e q).isSome → q.length < e.size
  | [], e, _ => by cases e <;> simp [Elem.size] <;> omega
  | i :: ps, e, h => by
    have he : e ≠ .absent := by rintro rfl; simp [elemAt_absent] at h
    rw [elemAt_cons e i ps he] at h
    cases hk : e.kids[i]? with
    | none => rw [hk] at h; cases h
    | some k =>
      rw [hk] at h
      have h1 := pos_depth ps k h
      have h2 := kid_size hk
      simp only [List.length_cons]; omega

theorem childPositions_finite (e : Elem) (he : e ≠ .absent) : Finite (childPositions e) [] := by
  refine ⟨(List.range e.size).flatMap fun d => posLev d e, ?_, ?_⟩
  · refine List.mem_flatMap.2 ⟨0, ?_, (mem_posLev 0 e he []).2 ⟨rfl, by rw [elemAt_nil e he]; rfl⟩⟩
    rw [List.mem_range]
    exact pos_depth [] e (by rw [elemAt_nil e he]; rfl)
  · intro p _ x hx
    obtain ⟨i, _, h⟩ := mem_childPositions.1 hx
    exact List.mem_flatMap.2 ⟨x.length, List.mem_range.2 (pos_depth x e h), (mem_posLev _ e he x).2 ⟨rfl, h⟩⟩

theorem within_positions {e : Elem} (he : e ≠ .absent) (q : Pos) : Within (childPositions e) [] q ↔ (elemAt e q).isSome := by
  constructor
  · intro h
    cases h with
    | root => rw [elemAt_nil e he]; rfl
    | child _ hx => exact (mem_childPositions.1 hx).choose_spec.2
  · intro h
    have key : ∀ (n : Nat) (q : Pos), q.length = n → (elemAt e q).isSome → Within (childPositions e) [] q := by
      intro n
      induction n with
      | zero => intro q hq _; rw [List.length_eq_zero_iff.1 hq]; exact .root
      | succ n ih =>
        intro q hq hs
        rcases List.eq_nil_or_concat q with rfl | ⟨p, i, rfl⟩
        · simp at hq
        · rw [List.concat_eq_append] at *
          have hp : (elemAt e p).isSome := elemAt_prefix hs
          exact .child (ih p (by simpa using hq) hp) (mem_childPositions.2 ⟨i, rfl, hs⟩)
    exact key q.length q rfl h

/-! ### the validators of one element -/

variable [Runtime]

/-- do all the rules pass? [proof device, no code] -/
def passAll (e : Elem) (p : Pos) : List FormRule → Bool
  | [] => true
  | r :: rs => match r.decide e p with
    | .ok .none => passAll e p rs
    | _ => false

/-- what a list of rules makes of the messages [proof device, no code] -/
def noteAll (e : Elem) (p : Pos) : List FormRule → List PStr → List PStr
  | [], ms => ms
  | r :: rs, ms => match r.decide e p with
    | .ok .none => noteAll e p rs ms
    | d => (runCheck (r.noter e p) ms d).1

omit [Runtime] in
theorem passAll_iff (e : Elem) (p : Pos) (rs : List FormRule) : passAll e p rs = true ↔ ∀ r ∈ rs, Passes e p r := by
  induction rs with
  | nil => simp [passAll]
  | cons r rs ih =>
    rw [passAll]
    simp only [List.mem_cons, forall_eq_or_imp]
    split
    · rename_i h; rw [ih]; exact ⟨fun g => ⟨h, g⟩, fun g => g.2⟩
    · rename_i h; simp only [Bool.false_eq_true, false_iff, not_and]; intro h'; exact absurd h' h

/-- messages with one more [proof device, no code] -/
def withText (ms : List PStr) : Option PStr → List PStr
  | .none => ms
  | some t => if t ∈ ms then ms else ms ++ [t]

theorem fails_run {e : Elem} {p : Pos} {r : FormRule} {text : Option PStr} (h : FailsWith e p r text) (ms : List PStr) :
    runCheck (r.noter e p) ms (r.decide e p) =
      (withText ms text, .ok false) := by
  obtain ⟨key, m, h1, h2, h3⟩ := h
  have hg : MsgAttr.none.truth = false := rfl
  rw [h1, runCheck, noteMessage, h2, if_neg (by simp [hg])]
  cases text with
  | none => simp only at h3; simp [(msg_silent m).2 h3, withText]
  | some t => simp only at h3; simp [(msg_says m).2 h3.1, h3.2, withText]

theorem fails_not_passes {e : Elem} {p : Pos} {r : FormRule} {text : Option PStr} (h : FailsWith e p r text) : ¬ Passes e p r := by
  obtain ⟨key, m, h1, _⟩ := h
  unfold Passes; rw [h1]; simp

theorem ruleLoop (e : Elem) (p : Pos) (rs : List FormRule) (h : Answers e p rs) (st : VState Pos (Pos → List PStr)) (k : Nat) :
    (validatorLoop st k (rs.map (runRule e p))).1 = { st with data := putAt st.data p (noteAll e p rs (st.data p)) } ∧
    (validatorLoop st k (rs.map (runRule e p))).2.2 = .ok (if passAll e p rs then .yes else .no) := by
  induction rs generalizing st k with
  | nil =>
    refine ⟨?_, rfl⟩
    simp only [List.map_nil, validatorLoop, noteAll]
    have : putAt st.data p (st.data p) = st.data := by funext q; simp only [putAt]; split <;> simp_all
    rw [this]
  | cons r rs ih =>
    rw [List.map_cons, validatorLoop]
    rcases h r (by simp) with hp | ⟨text, hf⟩
    · have hrun : runRule e p r st = (st, .ok .truthy) := by
        simp only [runRule]
        rw [show r.decide e p = .ok .none from hp]
        have : (fun q => if q = p then st.data p else st.data q) = st.data := by funext q; split <;> simp_all
        simp [runCheck, this, Except.map]
      rw [hrun]
      simp only
      obtain ⟨h1, h2⟩ := ih (fun x hx => h x (by simp [hx])) st (k + 1)
      refine ⟨?_, ?_⟩
      · rw [h1, noteAll, show r.decide e p = .ok .none from hp]
      · rw [h2, passAll, show r.decide e p = .ok .none from hp]
    · have hrun : runRule e p r st =
          ({ st with data := putAt st.data p (runCheck (r.noter e p) (st.data p) (r.decide e p)).1 }, .ok .falseInt) := by
        simp only [runRule, putAt, fails_run hf]
        rfl
      have hnp := fails_not_passes hf
      rw [hrun]
      simp only
      refine ⟨?_, ?_⟩
      · have : noteAll e p (r :: rs) (st.data p) = (runCheck (r.noter e p) (st.data p) (r.decide e p)).1 := by
          rw [noteAll]
          split
          · rename_i h'; exact absurd h' hnp
          · rfl
        rw [this]
      · have : passAll e p (r :: rs) = false := by
          rw [passAll]
          split
          · rename_i h'; exact absurd h' hnp
          · rfl
        rw [this]; rfl

theorem noteAll_mem (e : Elem) (p : Pos) (rs : List FormRule) (h : Answers e p rs) (ms : List PStr) (t : PStr) :
    t ∈ noteAll e p rs ms ↔ t ∈ ms ∨ FirstMessage e p rs t := by
  induction rs with
  | nil => simp [noteAll, FirstMessage]
  | cons r rs ih =>
    have ih := ih (fun x hx => h x (by simp [hx]))
    rcases h r (by simp) with hp | ⟨text, hf⟩
    · rw [noteAll, show r.decide e p = .ok .none from hp]
      simp only
      rw [ih]
      refine or_congr Iff.rfl ⟨?_, ?_⟩
      · rintro ⟨pre, x, post, rfl, h1, h2⟩
        exact ⟨r :: pre, x, post, rfl, by simpa using ⟨hp, h1⟩, h2⟩
      · rintro ⟨pre, x, post, heq, h1, h2⟩
        cases pre with
        | nil =>
          simp only [List.nil_append, List.cons.injEq] at heq
          obtain ⟨rfl, rfl⟩ := heq
          exact absurd hp (fails_not_passes h2)
        | cons y pre =>
          simp only [List.cons_append, List.cons.injEq] at heq
          obtain ⟨rfl, rfl⟩ := heq
          exact ⟨pre, x, post, rfl, fun z hz => h1 z (by simp [hz]), h2⟩
    · have hnp := fails_not_passes hf
      have hn : noteAll e p (r :: rs) ms = (runCheck (r.noter e p) ms (r.decide e p)).1 := by
        rw [noteAll]
        split
        · rename_i h'; exact absurd h' hnp
        · rfl
      have hfm : FirstMessage e p (r :: rs) t ↔ text = some t := by
        constructor
        · rintro ⟨pre, x, post, heq, h1, h2⟩
          cases pre with
          | nil =>
            simp only [List.nil_append, List.cons.injEq] at heq
            obtain ⟨rfl, rfl⟩ := heq
            have e1 := fails_run hf []
            rw [fails_run h2 []] at e1
            cases text with
            | none => simp [withText] at e1
            | some t' => simp [withText] at e1; rw [e1]
          | cons y pre =>
            simp only [List.cons_append, List.cons.injEq] at heq
            obtain ⟨rfl, rfl⟩ := heq
            exact absurd (h1 r (by simp)) hnp
        · rintro rfl
          exact ⟨[], r, rs, rfl, by simp, hf⟩
      rw [hn, fails_run hf, hfm]
      cases text with
      | none => simp [withText]
      | some t' =>
        simp only [Option.some.injEq, withText]
        by_cases hm : t' ∈ ms
        · simp only [hm, if_true]
          constructor
          · exact .inl
          · rintro (h | rfl)
            · exact h
            · exact hm
        · simp only [hm, if_false, List.mem_append, List.mem_singleton, eq_comm]

/-- messages are only added, at the end, and never twice -/
theorem noteAll_grows (e : Elem) (p : Pos) (rs : List FormRule) (h : Answers e p rs) (ms : List PStr) :
    ∃ new, noteAll e p rs ms = ms ++ new ∧ new.length ≤ 1 ∧ ∀ t ∈ new, t ∉ ms := by
  induction rs with
  | nil => exact ⟨[], by simp [noteAll], by simp, by simp⟩
  | cons r rs ih =>
    have ih := ih (fun x hx => h x (by simp [hx]))
    rcases h r (by simp) with hp | ⟨text, hf⟩
    · rw [noteAll, show r.decide e p = .ok .none from hp]; exact ih
    · have hnp := fails_not_passes hf
      have hn : noteAll e p (r :: rs) ms = (runCheck (r.noter e p) ms (r.decide e p)).1 := by
        rw [noteAll]
        split
        · rename_i h'; exact absurd h' hnp
        · rfl
      rw [hn, fails_run hf]
      cases text with
      | none => exact ⟨[], by simp [withText], by simp, by simp⟩
      | some t =>
        by_cases hm : t ∈ ms
        · exact ⟨[], by simp [hm, withText], by simp, by simp⟩
        · exact ⟨[t], by simp [hm, withText], by simp, by simpa using hm⟩

theorem blank_iff (c : FieldRules) (k : Elem) : elemIsEmpty c k = true ↔ IsBlank c k := by
  cases k with
  | scalar n st =>
    simp only [elemIsEmpty, IsBlank]
    cases c.textual with
    | true =>
      simp only [if_true, stringIsEmpty, Bool.and_eq_true, beq_iff_eq, Bool.not_eq_true']
      rw [← truthy_iff]; exact And.comm
    | false =>
      simp only [Bool.false_eq_true, if_false, Bool.and_eq_true, beq_iff_eq]
      cases st.value <;> simp [isNone]
  | dict n ks =>
    simp only [elemIsEmpty, IsBlank, Bool.and_eq_true, Bool.not_eq_true', List.any_eq_false]
    refine and_congr Iff.rfl (forall_congr' fun k => forall_congr' fun _ => ?_)
    cases k <;> simp [Elem.present]
  | list n ks => simp [elemIsEmpty, IsBlank]
  | array n ks => simp [elemIsEmpty, IsBlank]
  | absent => simp [elemIsEmpty, IsBlank]


/-! ### the tree -/

/-- the result of the validators `rs` of an element: blank or not, optional or not [proof device, no code] -/
def listVerdict (e : Elem) (c : FieldRules) (k : Elem) (p : Pos) (rs : List FormRule) : Verdict :=
  if elemIsEmpty c k && c.optional then .yes
  else if rs.isEmpty then (if elemIsEmpty c k then .no else .yes)
  else if passAll e p rs then .yes else .no

/-- what they make of the messages [proof device, no code] -/
def listNotes (e : Elem) (c : FieldRules) (k : Elem) (p : Pos) (rs : List FormRule) (ms : List PStr) : List PStr :=
  if elemIsEmpty c k && c.optional then ms else noteAll e p rs ms

/-- the result on the way down [proof device, no code] -/
def downVerdict (e : Elem) (rules : Pos → FieldRules) (p : Pos) : Verdict :=
  let k := (elemAt e p).getD .absent
  if containerElem k then
    if (rules p).descent.isEmpty then .unevaluated else listVerdict e (rules p) k p (rules p).descent
  else listVerdict e (rules p) k p (rules p).validators

/-- the result on the way up [proof device, no code] -/
def upVerdict (e : Elem) (rules : Pos → FieldRules) (p : Pos) : Verdict :=
  let k := (elemAt e p).getD .absent
  if containerElem k then listVerdict e (rules p) k p (rules p).validators else .unevaluated

/-- messages on the way down [proof device, no code] -/
def downNotes (e : Elem) (rules : Pos → FieldRules) (p : Pos) (ms : List PStr) : List PStr :=
  let k := (elemAt e p).getD .absent
  listNotes e (rules p) k p (if containerElem k then (rules p).descent else (rules p).validators) ms

/-- messages on the way up [proof device, no code] -/
def upNotes (e : Elem) (rules : Pos → FieldRules) (p : Pos) (ms : List PStr) : List PStr :=
  let k := (elemAt e p).getD .absent
  if containerElem k then listNotes e (rules p) k p (rules p).validators ms else ms

omit [Runtime] [DecidableEq I] in
theorem putAt_self (d : I → M) [DecidableEq I] (i : I) : putAt d i (d i) = d := by
  funext j; simp only [putAt]; split <;> simp_all

theorem validateElement_rules (e : Elem) (p : Pos) (c : FieldRules) (k : Elem) (rs : List FormRule) (h : Answers e p rs)
    (st : VState Pos (Pos → List PStr)) :
    (validateElement c.optional (elemIsEmpty c k) (rs.map (runRule e p)) st).1 =
      { st with data := putAt st.data p (listNotes e c k p rs (st.data p)) } ∧
    (validateElement c.optional (elemIsEmpty c k) (rs.map (runRule e p)) st).2.2 = .ok (listVerdict e c k p rs) := by
  unfold validateElement listNotes listVerdict
  by_cases hx : (elemIsEmpty c k && c.optional) = true
  · simp only [hx, if_true, putAt_self, and_self]
  · simp only [hx, Bool.false_eq_true, if_false]
    cases rs with
    | nil =>
      refine ⟨by simp [noteAll, putAt_self], ?_⟩
      cases elemIsEmpty c k <;> simp
    | cons r rs =>
      have := ruleLoop e p (r :: rs) h st 0
      simp only [List.map_cons] at this ⊢
      exact ⟨this.1, by simpa using this.2⟩

theorem runRule_flags (e : Elem) (p : Pos) (r : FormRule) (st : VState Pos (Pos → List PStr)) : (runRule e p r st).1.flag = st.flag := rfl

theorem formEnv_flags (e : Elem) (rules : Pos → FieldRules) : FlagsUntouched (formEnv e rules) := by
  apply ofClasses_flagsUntouched
  intro i fn hfn st
  have : ∃ r, fn = runRule e i r := by
    rcases hfn with ⟨vs, hvs, hf⟩ | ⟨vs, hvs, hf⟩
    · simp only [formClass, Option.some.injEq] at hvs
      subst hvs
      obtain ⟨r, _, rfl⟩ := List.mem_map.1 hf
      exact ⟨r, rfl⟩
    · simp only [formClass] at hvs
      split at hvs
      · simp only [Option.some.injEq] at hvs
        subst hvs
        obtain ⟨r, _, rfl⟩ := List.mem_map.1 hf
        exact ⟨r, rfl⟩
      · cases hvs
  obtain ⟨r, rfl⟩ := this
  rfl

theorem listVerdict_noObj (e : Elem) (c : FieldRules) (k : Elem) (p : Pos) (rs : List FormRule) :
    listVerdict e c k p rs = .yes ∨ listVerdict e c k p rs = .no := by
  unfold listVerdict
  repeat' split
  all_goals simp

theorem formEnv_local (e : Elem) (rules : Pos → FieldRules)
    (h : ∀ p k, elemAt e p = some k → Answers e p (rules p).validators ∧ (containerElem k = true → Answers e p (rules p).descent)) :
    LocalEnv (formEnv e rules) (fun p => (elemAt e p).isSome) (downNotes e rules) (upNotes e rules) (downVerdict e rules) (upVerdict e rules) where
  flags := formEnv_flags e rules
  closed := fun _ p _ x hx => (mem_childPositions.1 hx).choose_spec.2
  down := by
    intro p hp st
    obtain ⟨k, hk⟩ := Option.isSome_iff_exists.1 hp
    obtain ⟨hv, hd⟩ := h p k hk
    simp only [formEnv, VEnv.ofClasses, runValidate, formClass, isContainer_eq, downNotes, downVerdict, hk, Option.getD_some, if_true]
    cases hc : containerElem k with
    | true =>
      simp only [if_true, Bool.true_and, List.isEmpty_map]
      cases hde : (rules p).descent.isEmpty with
      | true =>
        rw [List.isEmpty_iff] at hde
        simp [hde, listNotes, noteAll, putAt_self]
      | false =>
        obtain ⟨g1, g2⟩ := validateElement_rules e p (rules p) k _ (hd hc) st
        simp only [Bool.false_eq_true, if_false]
        rw [g1, g2]
    | false =>
      obtain ⟨g1, g2⟩ := validateElement_rules e p (rules p) k _ hv st
      simp only [Bool.false_eq_true, if_false, Bool.false_and]
      rw [g1, g2]
  up := by
    intro p hp st
    obtain ⟨k, hk⟩ := Option.isSome_iff_exists.1 hp
    obtain ⟨hv, hd⟩ := h p k hk
    simp only [formEnv, VEnv.ofClasses, runValidate, formClass, isContainer_eq, upNotes, upVerdict, hk, Option.getD_some, Bool.false_eq_true, if_false]
    cases hc : containerElem k with
    | true =>
      obtain ⟨g1, g2⟩ := validateElement_rules e p (rules p) k _ hv st
      simp only [if_true]
      rw [g1, g2]
    | false => simp [putAt_self]
  downObj := by
    intro p _
    unfold downVerdict
    simp only
    split
    · split
      · simp
      · rcases listVerdict_noObj e (rules p) ((elemAt e p).getD .absent) p (rules p).descent with h | h <;> rw [h] <;> simp
    · rcases listVerdict_noObj e (rules p) ((elemAt e p).getD .absent) p (rules p).validators with h | h <;> rw [h] <;> simp
  upObj := by
    intro p _
    unfold upVerdict
    simp only
    split
    · rcases listVerdict_noObj e (rules p) ((elemAt e p).getD .absent) p (rules p).validators with h | h <;> rw [h] <;> simp
    · simp

theorem listVerdict_true (e : Elem) (c : FieldRules) (k : Elem) (p : Pos) (rs : List FormRule) :
    (listVerdict e c k p rs).truth = true ↔ Excused c k ∨ ((∀ r ∈ rs, Passes e p r) ∧ (rs = [] → ¬ IsBlank c k)) := by
  unfold listVerdict Excused
  rw [← blank_iff, ← passAll_iff]
  have hnil : rs = [] ↔ rs.isEmpty = true := List.isEmpty_iff.symm
  have hpass : rs.isEmpty = true → passAll e p rs = true := by
    intro h; rw [List.isEmpty_iff] at h; subst h; rfl
  rw [hnil]
  revert hpass
  generalize passAll e p rs = q
  generalize rs.isEmpty = z
  generalize elemIsEmpty c k = b
  generalize c.optional = o
  revert q z b o
  decide

theorem listNotes_mem (e : Elem) (c : FieldRules) (k : Elem) (p : Pos) (rs : List FormRule) (h : Answers e p rs) (ms : List PStr) (t : PStr) :
    t ∈ listNotes e c k p rs ms ↔ t ∈ ms ∨ (¬ Excused c k ∧ FirstMessage e p rs t) := by
  unfold listNotes Excused
  rw [← blank_iff]
  by_cases hx : (elemIsEmpty c k && c.optional) = true
  · rw [if_pos hx]
    rw [Bool.and_eq_true] at hx
    simp [hx.1, hx.2]
  · rw [if_neg hx, noteAll_mem e p rs h]
    rw [Bool.and_eq_true] at hx
    have : ¬ (c.optional = true ∧ elemIsEmpty c k = true) := fun h => hx h.symm
    simp only [this, not_false_eq_true, true_and]

theorem listNotes_grows (e : Elem) (c : FieldRules) (k : Elem) (p : Pos) (rs : List FormRule) (h : Answers e p rs) (ms : List PStr) :
    ∃ new, listNotes e c k p rs ms = ms ++ new ∧ new.length ≤ 1 ∧ ∀ t ∈ new, t ∉ ms := by
  unfold listNotes
  split
  · exact ⟨[], by simp, by simp, by simp⟩
  · exact noteAll_grows e p rs h ms

/-- nothing is added when the message is there already -/
theorem listNotes_same (e : Elem) (c : FieldRules) (k : Elem) (p : Pos) (rs : List FormRule) (h : Answers e p rs) (ms : List PStr)
    (hm : ∀ t, ¬ Excused c k → FirstMessage e p rs t → t ∈ ms) : listNotes e c k p rs ms = ms := by
  obtain ⟨new, h1, _, h3⟩ := listNotes_grows e c k p rs h ms
  cases new with
  | nil => simpa using h1
  | cons t new =>
    have : t ∈ listNotes e c k p rs ms := by rw [h1]; simp
    rcases (listNotes_mem e c k p rs h ms t).1 this with h' | ⟨hx, hf⟩
    · exact absurd h' (h3 t (by simp))
    · exact absurd (hm t hx hf) (h3 t (by simp))

omit [Runtime] [DecidableEq I] in
theorem nodup_of_short {A : Type} {l : List A} (h : l.length ≤ 1) : l.Nodup := by
  match l, h with
  | [], _ => simp
  | [a], _ => simp
  | a :: b :: l, h => simp at h

theorem runCheck_result (n : Noter) (ms ms' : List PStr) (d : Except PyErr (Option PStr)) : (runCheck n ms d).2 = (runCheck n ms' d).2 := by
  match d with
  | .error er => rfl
  | .ok .none => rfl
  | .ok (some key) =>
    simp only [runCheck, noteMessage]
    cases (if MsgAttr.none.truth = true then Except.ok MsgAttr.none else n.attr key) with
    | error er => rfl
    | ok m =>
      simp only
      split
      · cases expandMessage n.env m <;> rfl
      · rfl

theorem formEnv_deterministic (e : Elem) (rules : Pos → FieldRules) : Deterministic (formEnv e rules) (fun _ : Pos → List PStr => ()) := by
  have hr : ∀ i fn, VClass.runs (formClass e rules i) fn → ∃ r, fn = runRule e i r := by
    intro i fn hfn
    rcases hfn with ⟨vs, hvs, hf⟩ | ⟨vs, hvs, hf⟩
    · simp only [formClass, Option.some.injEq] at hvs
      subst hvs
      obtain ⟨r, _, rfl⟩ := List.mem_map.1 hf
      exact ⟨r, rfl⟩
    · simp only [formClass] at hvs
      split at hvs
      · simp only [Option.some.injEq] at hvs
        subst hvs
        obtain ⟨r, _, rfl⟩ := List.mem_map.1 hf
        exact ⟨r, rfl⟩
      · cases hvs
  apply ofClasses_deterministic
  · intros; rfl
  · intros; rfl
  · intro i fn hfn st
    obtain ⟨r, rfl⟩ := hr i fn hfn
    rfl
  · intro i fn hfn st st' _
    obtain ⟨r, rfl⟩ := hr i fn hfn
    simp only [runRule]
    rw [runCheck_result _ (st.data i) (st'.data i)]
  · intros; rfl

end Flatland
