import Verif.Proofs.FormValidation
import Verif.Props.Validate
import Verif.Props.Validators
/-! C74: validation of a whole form. -/
namespace Flatland
open Flatland.Spec

section
variable [Runtime]

/-- **C74.** A whole form is validated: if no validator raises, `validate()` ends; it returns True iff every element obeys its own
validators; each element is marked valid iff it does; each element gets exactly the messages of its first failing validator (and first
failing descent validator) in addition to those it had; and nothing else happens to the messages. -/
theorem C74_validate (e : Elem) (he : e ≠ .absent) (rules : Pos → FieldRules)
    (h : ∀ p k, elemAt e p = some k → Answers e p (rules p).validators ∧ (containerElem k = true → Answers e p (rules p).descent))
    (st : VState Pos (Pos → List PStr)) :
    ∃ r b n, (∀ m, n ≤ m → validateForm e rules m st = some r) ∧ r.result = .ok b ∧
      (b = true ↔ ∀ p k, elemAt e p = some k → Obeys e rules p k) ∧
      (∀ p k, elemAt e p = some k →
        (Obeys e rules p k → r.state.flag p = .yes) ∧ (¬ Obeys e rules p k → r.state.flag p = .no) ∧
        ∀ text, text ∈ r.state.data p ↔ text ∈ st.data p ∨ Reported e rules p k text) ∧
      ∀ p, elemAt e p = none → r.state.flag p = st.flag p ∧ r.state.data p = st.data p := by
  have hl := formEnv_local e rules h
  have hk : StaticKids (formEnv e rules) (childPositions e) := fun _ _ => rfl
  have hroot : (elemAt e []).isSome := by rw [elemAt_nil e he]; rfl
  obtain ⟨r, n, hrun⟩ := C34_terminates (formEnv e rules) (childPositions e) hk [] (childPositions_finite e he) st
  have hn := hrun n (Nat.le_refl n)
  obtain ⟨⟨b, hb⟩, hdn, hup, hdata, hout⟩ := validateTree_local hl hroot hn
  have hskip : ∀ i d, (i, d) ∈ r.downs → ¬ SkipsBelow d := by
    intro i d hd
    have hd' : d = downVerdict e rules i := hdn (i, d) hd
    subst hd'
    rw [skipsBelow_iff]
    unfold downVerdict
    simp only
    split
    · split
      · rfl
      · rcases listVerdict_noObj e (rules i) ((elemAt e i).getD .absent) i (rules i).descent with h | h <;> rw [h] <;> rfl
    · rcases listVerdict_noObj e (rules i) ((elemAt e i).getD .absent) i (rules i).validators with h | h <;> rw [h] <;> rfl
  have hvis : ∀ x, x ∈ r.downs.map Prod.fst ↔ (elemAt e x).isSome := by
    intro x
    rw [C34_visits_all (formEnv e rules) (childPositions e) hk n [] st r b hn hb hskip x, within_positions he]
  have hups : ∀ x, x ∈ r.ups.map Prod.fst ↔ (elemAt e x).isSome := by
    intro x
    rw [(C34_each_once (formEnv e rules) hl.flags n [] st r b hn hb).2, List.mem_reverse, hvis]
  have inDowns : ∀ x, (elemAt e x).isSome → (x, downVerdict e rules x) ∈ r.downs := by
    intro x hx
    obtain ⟨⟨y, d⟩, hyd, rfl⟩ := List.mem_map.1 ((hvis x).2 hx)
    have : d = downVerdict e rules y := hdn _ hyd
    exact this ▸ hyd
  have inUps : ∀ x, (elemAt e x).isSome → (x, upVerdict e rules x) ∈ r.ups := by
    intro x hx
    obtain ⟨⟨y, d⟩, hyd, rfl⟩ := List.mem_map.1 ((hups x).2 hx)
    have : d = upVerdict e rules y := hup _ hyd
    exact this ▸ hyd
  have hobeys : ∀ p k, elemAt e p = some k →
      (Obeys e rules p k ↔ (downVerdict e rules p).truth = true ∧ (upVerdict e rules p).truth = true) := by
    intro p k hpk
    unfold Obeys downVerdict upVerdict
    simp only [hpk, Option.getD_some]
    cases hc : containerElem k with
    | true =>
      simp only [if_true, true_implies, listVerdict_true]
      by_cases hx : Excused (rules p) k
      · simp only [hx, true_or, true_iff, and_true]
        split
        · rfl
        · exact (listVerdict_true ..).2 (.inl hx)
      · simp only [hx, false_or]
        by_cases hde : (rules p).descent = []
        · simp [hde, Verdict.truth]
        · rw [if_neg (by simpa using hde), listVerdict_true]
          simp only [hx, false_or, hde, false_implies, and_true]
          constructor
          · rintro ⟨h1, h2, h3⟩; exact ⟨h3, h1, h2⟩
          · rintro ⟨h3, h1, h2⟩; exact ⟨h1, h2, h3⟩
    | false =>
      have hu : Verdict.unevaluated.truth = true := rfl
      simp [listVerdict_true, hu]
  refine ⟨r, b, n, hrun, hb, ?_, ?_, ?_⟩
  · rw [C34_conjunction (formEnv e rules) hl.flags n [] st r b hn hb]
    simp only [good_iff]
    constructor
    · rintro ⟨h1, h2⟩ p k hpk
      have hs : (elemAt e p).isSome := by rw [hpk]; rfl
      exact (hobeys p k hpk).2 ⟨h1 _ _ (inDowns p hs), h2 _ _ (inUps p hs)⟩
    · intro hall
      refine ⟨?_, ?_⟩
      · intro i d hd
        have hs := (hvis i).1 (List.mem_map.2 ⟨_, hd, rfl⟩)
        obtain ⟨k, hpk⟩ := Option.isSome_iff_exists.1 hs
        have : d = downVerdict e rules i := hdn _ hd
        rw [this]
        exact ((hobeys i k hpk).1 (hall i k hpk)).1
      · intro i d hd
        have hs := (hups i).1 (List.mem_map.2 ⟨_, hd, rfl⟩)
        obtain ⟨k, hpk⟩ := Option.isSome_iff_exists.1 hs
        have : d = upVerdict e rules i := hup _ hd
        rw [this]
        exact ((hobeys i k hpk).1 (hall i k hpk)).2
  · intro p k hpk
    have hs : (elemAt e p).isSome := by rw [hpk]; rfl
    have hflag := (C34_flags (formEnv e rules) hl.flags n [] st r b hn hb).1 p _ _ (inDowns p hs) (inUps p hs)
    have hsome : downVerdict e rules p = .unevaluated → upVerdict e rules p ≠ .unevaluated := by
      unfold downVerdict upVerdict
      simp only [hpk, Option.getD_some]
      cases hc : containerElem k with
      | true =>
        simp only [if_true]
        intro _
        rcases listVerdict_noObj e (rules p) k p (rules p).validators with h | h <;> rw [h] <;> simp
      | false =>
        simp only [Bool.false_eq_true, if_false]
        intro hx
        rcases listVerdict_noObj e (rules p) k p (rules p).validators with h | h <;> rw [h] at hx <;> cases hx
    refine ⟨?_, ?_, ?_⟩
    · intro ho
      obtain ⟨h1, h2⟩ := (hobeys p k hpk).1 ho
      rw [hflag, finalFlag_eq]
      rw [if_neg (by simp [h1])]
      split
      · rw [h2]; rfl
      · rename_i hu
        rw [if_neg (fun hd => hsome hd (Decidable.not_not.1 hu))]
    · intro ho
      rw [hflag, finalFlag_eq]
      by_cases h1 : (downVerdict e rules p).truth = true
      · have h2 : (upVerdict e rules p).truth = false := by
          cases hu : (upVerdict e rules p).truth
          · rfl
          · exact absurd ((hobeys p k hpk).2 ⟨h1, hu⟩) ho
        rw [if_neg (by simp [h1]), if_pos (by intro hu; rw [hu] at h2; cases h2), h2]
        rfl
      · rw [if_pos (by simpa using h1)]
    · intro text
      rw [hdata p ((hvis p).2 hs)]
      obtain ⟨hv, hd⟩ := h p k hpk
      unfold upNotes downNotes Reported
      simp only [hpk, Option.getD_some]
      cases hc : containerElem k with
      | true =>
        simp only [if_true, true_and]
        rw [listNotes_mem _ _ _ _ _ hv, listNotes_mem _ _ _ _ _ (hd hc)]
        grind
      | false =>
        simp only [Bool.false_eq_true, if_false, false_and, or_false]
        rw [listNotes_mem _ _ _ _ _ hv]
  · intro p hp
    have hnot : p ∉ r.downs.map Prod.fst := by rw [hvis, hp]; simp
    exact ⟨(C34_flags (formEnv e rules) hl.flags n [] st r b hn hb).2 p hnot, hout p hnot⟩

/-- **C74.** Messages are only added at the end of an element's list – at most two, none that is there already – and validating the form
once more changes neither result, flags nor messages. -/
theorem C74_again (e : Elem) (he : e ≠ .absent) (rules : Pos → FieldRules)
    (h : ∀ p k, elemAt e p = some k → Answers e p (rules p).validators ∧ (containerElem k = true → Answers e p (rules p).descent))
    (st : VState Pos (Pos → List PStr)) (n : Nat) (r : VRun Pos (Pos → List PStr)) (hr : validateForm e rules n st = some r) :
    (∀ p, ∃ new, r.state.data p = st.data p ++ new ∧ new.length ≤ 2 ∧ new.Nodup ∧ ∀ t ∈ new, t ∉ st.data p) ∧
    ∃ r', validateForm e rules n r.state = some r' ∧ r'.result = r.result ∧ r'.state.flag = r.state.flag ∧ r'.state.data = r.state.data := by
  have hl := formEnv_local e rules h
  have hroot : (elemAt e []).isSome := by rw [elemAt_nil e he]; rfl
  obtain ⟨⟨b, hb⟩, hdn, hup, hdata, hout⟩ := validateTree_local hl hroot hr
  have hsub : ∀ x ∈ r.downs.map Prod.fst, (elemAt e x).isSome := by
    intro x hx
    have hk : StaticKids (formEnv e rules) (childPositions e) := fun _ _ => rfl
    have := (C35_visited (formEnv e rules) (childPositions e) hk n [] st r b hr hb x).1 hx
    cases this with
    | root => exact hroot
    | child _ _ _ hx => exact (mem_childPositions.1 hx).choose_spec.2
  have hans : ∀ p k, elemAt e p = some k →
      Answers e p (if containerElem k then (rules p).descent else (rules p).validators) := by
    intro p k hk
    split
    · rename_i hc; exact (h p k hk).2 hc
    · exact (h p k hk).1
  refine ⟨?_, ?_⟩
  · intro p
    by_cases hp : p ∈ r.downs.map Prod.fst
    · obtain ⟨k, hk⟩ := Option.isSome_iff_exists.1 (hsub p hp)
      rw [hdata p hp]
      obtain ⟨n1, e1, l1, f1⟩ := listNotes_grows e (rules p) k p _ (hans p k hk) (st.data p)
      have hd1 : downNotes e rules p (st.data p) = st.data p ++ n1 := by
        unfold downNotes; simp only [hk, Option.getD_some]; exact e1
      rw [hd1]
      have hu : ∃ n2, upNotes e rules p (st.data p ++ n1) = (st.data p ++ n1) ++ n2 ∧ n2.length ≤ 1 ∧ ∀ t ∈ n2, t ∉ st.data p ++ n1 := by
        unfold upNotes
        simp only [hk, Option.getD_some]
        split
        · exact listNotes_grows e (rules p) k p _ (h p k hk).1 _
        · exact ⟨[], by simp, by simp, by simp⟩
      obtain ⟨n2, e2, l2, f2⟩ := hu
      refine ⟨n1 ++ n2, by rw [e2, List.append_assoc], by simp; omega, ?_, ?_⟩
      · rw [List.nodup_append]
        refine ⟨nodup_of_short l1, nodup_of_short l2, ?_⟩
        intro a ha c hc hac
        subst hac
        exact f2 a hc (by simp [ha])
      · intro t ht
        rcases List.mem_append.1 ht with ht | ht
        · exact f1 t ht
        · intro hm; exact f2 t ht (by simp [hm])
    · exact ⟨[], by simp [hout p hp], by simp, by simp, by simp⟩
  · obtain ⟨r', hr', hb', hdowns, hups, hflag⟩ := C37_repeatable (formEnv e rules) _ (formEnv_deterministic e rules) n [] st r b hr hb
    obtain ⟨_, _, _, hdata', hout'⟩ := validateTree_local hl hroot hr'
    refine ⟨r', hr', by rw [hb', hb], hflag, ?_⟩
    funext p
    by_cases hp : p ∈ r.downs.map Prod.fst
    · obtain ⟨k, hk⟩ := Option.isSome_iff_exists.1 (hsub p hp)
      rw [hdata' p (by rw [hdowns]; exact hp), hdata p hp]
      have hall : ∀ t, t ∈ upNotes e rules p (downNotes e rules p (st.data p)) ↔ t ∈ st.data p ∨ Reported e rules p k t := by
        intro t
        obtain ⟨hv, hd⟩ := h p k hk
        unfold upNotes downNotes Reported
        simp only [hk, Option.getD_some]
        cases hc : containerElem k with
        | true =>
          simp only [if_true, true_and]
          rw [listNotes_mem _ _ _ _ _ hv, listNotes_mem _ _ _ _ _ (hd hc)]
          grind
        | false =>
          simp only [Bool.false_eq_true, if_false, false_and, or_false]
          rw [listNotes_mem _ _ _ _ _ hv]
      generalize hms : upNotes e rules p (downNotes e rules p (st.data p)) = ms at hall
      have hdn : downNotes e rules p ms = ms := by
        unfold downNotes
        simp only [hk, Option.getD_some]
        apply listNotes_same _ _ _ _ _ (hans p k hk)
        intro t hx hf
        rw [hall]
        right
        refine ⟨hx, ?_⟩
        cases hc : containerElem k with
        | true => rw [hc] at hf; exact .inr ⟨rfl, by simpa using hf⟩
        | false => rw [hc] at hf; exact .inl (by simpa using hf)
      rw [hdn]
      unfold upNotes
      simp only [hk, Option.getD_some]
      split
      · apply listNotes_same _ _ _ _ _ (h p k hk).1
        intro t hx hf
        rw [hall]
        exact .inr ⟨hx, .inl hf⟩
      · rfl
    · rw [hout' p (by rw [hdowns]; exact hp)]

/-- **C74.** For a form whose validators are those of the package, with bounds that fit the values and messages that can be built: the
form is valid iff every element is blank and optional, or else meets all its requirements – or, if it has none, is not blank. -/
theorem C74_checks (repr : PStr → PStr) (e : Elem) (he : e ≠ .absent) (rules : Pos → FieldRules) (checks : Pos → List Check)
    (noter : Elem → Pos → Noter) (hv : ∀ p, (rules p).validators = (checks p).map fun c => checkRule repr c noter) (hd : ∀ p, (rules p).descent = [])
    (ha : ∀ p k, elemAt e p = some k → ∀ c ∈ checks p, Applies (checked repr k) c)
    (hm : ∀ p k, elemAt e p = some k → ∀ c ∈ checks p, ∃ m text, (noter e p).attr (failureKey c).toList = .ok m ∧ ¬ Silent m ∧
      expandMessage (noter e p).env m = .ok text) (st : VState Pos (Pos → List PStr)) :
    ∃ r b n, (∀ m, n ≤ m → validateForm e rules m st = some r) ∧ r.result = .ok b ∧
      (b = true ↔ ∀ p k, elemAt e p = some k → Excused (rules p) k ∨
        ((∀ c ∈ checks p, Meets (checked repr k) c) ∧ (checks p = [] → ¬ IsBlank (rules p) k))) ∧
      ∀ p k, elemAt e p = some k → ∀ text, text ∈ r.state.data p → text ∉ st.data p →
        ¬ Excused (rules p) k ∧ ∃ c m, c ∈ checks p ∧ ¬ Meets (checked repr k) c ∧
          (noter e p).attr (failureKey c).toList = .ok m ∧ expandMessage (noter e p).env m = .ok text := by
  have hdec : ∀ p k, elemAt e p = some k → ∀ c, (checkRule repr c noter).decide e p = runValidator (checked repr k) c := by
    intro p k hk c
    simp only [checkRule, hk, checked]
    cases k <;> rfl
  have hpass : ∀ p k, elemAt e p = some k → ∀ c ∈ checks p, (Passes e p (checkRule repr c noter) ↔ Meets (checked repr k) c) := by
    intro p k hk c hc
    obtain ⟨h1, h2⟩ := C40_exact (checked repr k) c (ha p k hk c hc)
    unfold Passes
    rw [hdec p k hk]
    constructor
    · intro h
      rcases Classical.em (Meets (checked repr k) c) with hm | hm
      · exact hm
      · rw [h2 hm] at h; cases h
    · exact h1
  have hfail : ∀ p k, elemAt e p = some k → ∀ c ∈ checks p, ¬ Meets (checked repr k) c →
      (checkRule repr c noter).decide e p = .ok (some (failureKey c).toList) := by
    intro p k hk c hc hn
    rw [hdec p k hk]
    exact (C40_exact (checked repr k) c (ha p k hk c hc)).2 hn
  obtain ⟨r, b, n, h1, h2, h3, h4, _⟩ := C74_validate e he rules (by
    intro p k hk
    refine ⟨?_, fun _ => by rw [hd]; intro r hr; cases hr⟩
    rw [hv]
    intro x hx
    obtain ⟨c, hc, rfl⟩ := List.mem_map.1 hx
    rcases Classical.em (Meets (checked repr k) c) with hme | hme
    · exact .inl ((hpass p k hk c hc).2 hme)
    · obtain ⟨m, text, g1, g2, g3⟩ := hm p k hk c hc
      exact .inr ⟨some text, _, m, hfail p k hk c hc hme, g1, g2, g3⟩) st
  refine ⟨r, b, n, h1, h2, ?_, ?_⟩
  · rw [h3]
    refine forall_congr' fun p => forall_congr' fun k => forall_congr' fun hk => ?_
    unfold Obeys
    rw [hv, hd]
    refine or_congr Iff.rfl ?_
    simp only [List.mem_map, forall_exists_index, and_imp, forall_apply_eq_imp_iff₂, List.map_eq_nil_iff, List.not_mem_nil, false_implies,
      implies_true, and_true]
    refine and_congr (forall_congr' fun c => ?_) Iff.rfl
    constructor
    · intro h hc; exact (hpass p k hk c hc).1 (h hc)
    · intro h hc; exact (hpass p k hk c hc).2 (h hc)
  · intro p k hk text ht hn
    rcases ((h4 p k hk).2.2 text).1 ht with h' | ⟨hx, hf⟩
    · exact absurd h' hn
    refine ⟨hx, ?_⟩
    rcases hf with ⟨pre, x, post, heq, _, key, m, g1, g2, g3, g4⟩ | ⟨_, pre, x, post, heq, _⟩
    · have hmem : x ∈ (checks p).map fun c => checkRule repr c noter := by rw [← hv, heq]; simp
      obtain ⟨c, hc, rfl⟩ := List.mem_map.1 hmem
      have hme : ¬ Meets (checked repr k) c := by
        intro hme
        have := (hpass p k hk c hc).2 hme
        unfold Passes at this
        rw [this] at g1; cases g1
      rw [hfail p k hk c hc hme] at g1
      cases g1
      exact ⟨c, m, hc, hme, g2, g4⟩
    · rw [hd] at heq; simp at heq

end

/-! ### an example: a form with an empty required name and an age that must lie between 1 and 5 -/
section examples
attribute [local instance] Runtime.ascii

def exForm (age : Int) : Elem :=
  .dict .none [.scalar (some ['n']) ⟨.none, [], .none⟩, .scalar (some ['a']) ⟨.int age, ['3'], .none⟩]

def exNoter : Elem → Pos → Noter := fun _ _ => ⟨[], .ok .none, .ok .none⟩ |> fun env => ⟨env, fun k => .ok (.fixed (.single k))⟩

def exChecks : Pos → List Check
  | [0] => [.longerThan 1, .present]
  | [1] => [.valueBetween (.int 1) (.int 5) true]
  | _ => []

def exRules (p : Pos) : FieldRules := { validators := (exChecks p).map fun c => checkRule id c exNoter }

theorem exForm_at (age : Int) : ∀ p k, elemAt (exForm age) p = some k →
    (p = [] ∧ k = exForm age) ∨ (p = [0] ∧ k = .scalar (some ['n']) ⟨.none, [], .none⟩) ∨
      (p = [1] ∧ k = .scalar (some ['a']) ⟨.int age, ['3'], .none⟩) := by
  intro p k h
  match p with
  | [] => left; simp [exForm, elemAt] at h; exact ⟨rfl, h.symm⟩
  | [0] => right; left; simp [exForm, elemAt, Elem.kids] at h; exact ⟨rfl, h.symm⟩
  | [1] => right; right; simp [exForm, elemAt, Elem.kids] at h; exact ⟨rfl, h.symm⟩
  | (n + 2) :: p => simp [exForm, elemAt, Elem.kids] at h
  | 0 :: q :: p => simp [exForm, elemAt, Elem.kids] at h
  | 1 :: q :: p => simp [exForm, elemAt, Elem.kids] at h

/-- the hypotheses of C74_checks (and so of C74_validate) are met -/
example (age : Int) : (∀ p k, elemAt (exForm age) p = some k → ∀ c ∈ exChecks p, Applies (checked id k) c) ∧
    ∀ p k, elemAt (exForm age) p = some k → ∀ c ∈ exChecks p, ∃ m text, (exNoter (exForm age) p).attr (failureKey c).toList = .ok m ∧
      ¬ Silent m ∧ expandMessage (exNoter (exForm age) p).env m = .ok text := by
  constructor
  · intro p k h c hc
    rcases exForm_at age p k h with ⟨rfl, rfl⟩ | ⟨rfl, rfl⟩ | ⟨rfl, rfl⟩
    · simp [exChecks] at hc
    · simp only [exChecks, List.mem_cons, List.not_mem_nil, or_false] at hc
      rcases hc with rfl | rfl <;> trivial
    · simp only [exChecks, List.mem_cons, List.not_mem_nil, or_false] at hc
      subst hc
      have hcmp : ∀ a b : Int, Comparable (.int a) (.int b) := fun a b => by
        rcases Int.lt_trichotomy a b with h | h | h
        · exact .inl (.number rfl rfl h)
        · exact .inr (.inl (h ▸ .number rfl rfl))
        · exact .inr (.inr (.number rfl rfl h))
      exact ⟨hcmp 1 age, hcmp age 5⟩
  · intro p k h c hc
    rcases exForm_at age p k h with ⟨rfl, rfl⟩ | ⟨rfl, rfl⟩ | ⟨rfl, rfl⟩
    · simp [exChecks] at hc
    · simp only [exChecks, List.mem_cons, List.not_mem_nil, or_false] at hc
      rcases hc with rfl | rfl <;> exact ⟨_, _, rfl, (msg_says _).1 rfl, rfl⟩
    · simp only [exChecks, List.mem_cons, List.not_mem_nil, or_false] at hc
      subst hc
      exact ⟨_, _, rfl, (msg_says _).1 rfl, rfl⟩

/-- validating it: not valid, and the name has got the message of its first failing validator only -/
example : (validateForm (exForm 3) exRules 9 ⟨fun _ => .unevaluated, fun _ => []⟩).map
      (fun r => (r.result, r.state.data [0], r.state.data [1], r.state.flag [0], r.state.flag [1])) =
    some (.ok false, ["short".toList], [], .no, .yes) := by decide +kernel

end examples
end Flatland
