import Verif.Proofs.FormParts
import Verif.Props.RichValidation
/-! # C74, C93: validating a part of a form, and `all_valid` -/
namespace Flatland
open Flatland.Spec

section
variable [Runtime]

/-- **C74.** Validating an element within a form: if no validator of it or of what is below it raises, `validate()` ends; it returns True iff the element and
everything below it obey their own validators – these may look at the rest of the form too –; flags and messages of these elements are as C74_validate says;
and those of all others stay as they were. -/
theorem C74_part (e : Elem) (rules : Pos → FieldRules) (root : Pos) (hroot : (elemAt e root).isSome)
    (h : ∀ p k, root <+: p → elemAt e p = some k → Answers e p (rules p).validators ∧ (containerElem k = true → Answers e p (rules p).descent))
    (st : VState Pos (Pos → List PStr)) :
    ∃ r b n, (∀ m, n ≤ m → validateFormAt e rules m root st = some r) ∧ r.result = .ok b ∧
      (b = true ↔ ∀ p k, root <+: p → elemAt e p = some k → Obeys e rules p k) ∧
      (∀ p k, root <+: p → elemAt e p = some k →
        (Obeys e rules p k → r.state.flag p = .yes) ∧ (¬ Obeys e rules p k → r.state.flag p = .no) ∧
        ∀ text, text ∈ r.state.data p ↔ text ∈ st.data p ∨ Reported e rules p k text) ∧
      ∀ p, ¬ (root <+: p ∧ (elemAt e p).isSome) → r.state.flag p = st.flag p ∧ r.state.data p = st.data p := by
  have hl := formEnv_local_part e rules root h
  have hk : StaticKids (formEnv e rules) (childPositions e) := fun _ _ => rfl
  obtain ⟨r, n, hrun⟩ := C34_terminates (formEnv e rules) (childPositions e) hk root (childPositions_finite_at e root hroot) st
  have hn := hrun n (Nat.le_refl n)
  obtain ⟨⟨b, hb⟩, hdn, hup, hdata, hout⟩ := validateTree_local hl ⟨List.prefix_refl root, hroot⟩ hn
  have hskip : ∀ i d, (i, d) ∈ r.downs → ¬ SkipsBelow d := by
    intro i d hd
    have hd' : d = downVerdict e rules i := hdn (i, d) hd
    subst hd'
    rw [skipsBelow_iff]
    unfold downVerdict
    simp only
    split
    · split
      · rfl
      · rcases listVerdict_noObj e (rules i) ((elemAt e i).getD .absent) i (rules i).descent with h | h <;> rw [h] <;> rfl
    · rcases listVerdict_noObj e (rules i) ((elemAt e i).getD .absent) i (rules i).validators with h | h <;> rw [h] <;> rfl
  have hvis : ∀ x, x ∈ r.downs.map Prod.fst ↔ root <+: x ∧ (elemAt e x).isSome := by
    intro x
    rw [C34_visits_all (formEnv e rules) (childPositions e) hk n root st r b hn hb hskip x, within_part hroot]
  have hups : ∀ x, x ∈ r.ups.map Prod.fst ↔ root <+: x ∧ (elemAt e x).isSome := by
    intro x
    rw [(C34_each_once (formEnv e rules) hl.flags n root st r b hn hb).2, List.mem_reverse, hvis]
  have inDowns : ∀ x, root <+: x ∧ (elemAt e x).isSome → (x, downVerdict e rules x) ∈ r.downs := by
    intro x hx
    obtain ⟨⟨y, d⟩, hyd, rfl⟩ := List.mem_map.1 ((hvis x).2 hx)
    have : d = downVerdict e rules y := hdn _ hyd
    exact this ▸ hyd
  have inUps : ∀ x, root <+: x ∧ (elemAt e x).isSome → (x, upVerdict e rules x) ∈ r.ups := by
    intro x hx
    obtain ⟨⟨y, d⟩, hyd, rfl⟩ := List.mem_map.1 ((hups x).2 hx)
    have : d = upVerdict e rules y := hup _ hyd
    exact this ▸ hyd
  have hobeys : ∀ p k, elemAt e p = some k →
      (Obeys e rules p k ↔ (downVerdict e rules p).truth = true ∧ (upVerdict e rules p).truth = true) := by
    intro p k hpk
    unfold Obeys downVerdict upVerdict
    simp only [hpk, Option.getD_some]
    cases hc : containerElem k with
    | true =>
      simp only [if_true, true_implies, listVerdict_true]
      by_cases hx : Excused (rules p) k
      · simp only [hx, true_or, true_iff, and_true]
        split
        · rfl
        · exact (listVerdict_true ..).2 (.inl hx)
      · simp only [hx, false_or]
        by_cases hde : (rules p).descent = []
        · simp [hde, Verdict.truth]
        · rw [if_neg (by simpa using hde), listVerdict_true]
          simp only [hx, false_or, hde, false_implies, and_true]
          constructor
          · rintro ⟨h1, h2, h3⟩; exact ⟨h3, h1, h2⟩
          · rintro ⟨h3, h1, h2⟩; exact ⟨h1, h2, h3⟩
    | false =>
      have hu : Verdict.unevaluated.truth = true := rfl
      simp [listVerdict_true, hu]
  refine ⟨r, b, n, hrun, hb, ?_, ?_, ?_⟩
  · rw [C34_conjunction (formEnv e rules) hl.flags n root st r b hn hb]
    simp only [good_iff]
    constructor
    · rintro ⟨h1, h2⟩ p k hpre hpk
      have hs : root <+: p ∧ (elemAt e p).isSome := ⟨hpre, by rw [hpk]; rfl⟩
      exact (hobeys p k hpk).2 ⟨h1 _ _ (inDowns p hs), h2 _ _ (inUps p hs)⟩
    · intro hall
      refine ⟨?_, ?_⟩
      · intro i d hd
        have hs := (hvis i).1 (List.mem_map.2 ⟨_, hd, rfl⟩)
        obtain ⟨k, hpk⟩ := Option.isSome_iff_exists.1 hs.2
        have : d = downVerdict e rules i := hdn _ hd
        rw [this]
        exact ((hobeys i k hpk).1 (hall i k hs.1 hpk)).1
      · intro i d hd
        have hs := (hups i).1 (List.mem_map.2 ⟨_, hd, rfl⟩)
        obtain ⟨k, hpk⟩ := Option.isSome_iff_exists.1 hs.2
        have : d = upVerdict e rules i := hup _ hd
        rw [this]
        exact ((hobeys i k hpk).1 (hall i k hs.1 hpk)).2
  · intro p k hpre hpk
    have hs : root <+: p ∧ (elemAt e p).isSome := ⟨hpre, by rw [hpk]; rfl⟩
    have hflag := (C34_flags (formEnv e rules) hl.flags n root st r b hn hb).1 p _ _ (inDowns p hs) (inUps p hs)
    have hsome : downVerdict e rules p = .unevaluated → upVerdict e rules p ≠ .unevaluated := by
      unfold downVerdict upVerdict
      simp only [hpk, Option.getD_some]
      cases hc : containerElem k with
      | true =>
        simp only [if_true]
        intro _
        rcases listVerdict_noObj e (rules p) k p (rules p).validators with h | h <;> rw [h] <;> simp
      | false =>
        simp only [Bool.false_eq_true, if_false]
        intro hx
        rcases listVerdict_noObj e (rules p) k p (rules p).validators with h | h <;> rw [h] at hx <;> cases hx
    refine ⟨?_, ?_, ?_⟩
    · intro ho
      obtain ⟨h1, h2⟩ := (hobeys p k hpk).1 ho
      rw [hflag, finalFlag_eq]
      rw [if_neg (by simp [h1])]
      split
      · rw [h2]; rfl
      · rename_i hu
        rw [if_neg (fun hd => hsome hd (Decidable.not_not.1 hu))]
    · intro ho
      rw [hflag, finalFlag_eq]
      by_cases h1 : (downVerdict e rules p).truth = true
      · have h2 : (upVerdict e rules p).truth = false := by
          cases hu : (upVerdict e rules p).truth
          · rfl
          · exact absurd ((hobeys p k hpk).2 ⟨h1, hu⟩) ho
        rw [if_neg (by simp [h1]), if_pos (by intro hu; rw [hu] at h2; cases h2), h2]
        rfl
      · rw [if_pos (by simpa using h1)]
    · intro text
      rw [hdata p ((hvis p).2 hs)]
      obtain ⟨hv, hd⟩ := h p k hpre hpk
      unfold upNotes downNotes Reported
      simp only [hpk, Option.getD_some]
      cases hc : containerElem k with
      | true =>
        simp only [if_true, true_and]
        rw [listNotes_mem _ _ _ _ _ hv, listNotes_mem _ _ _ _ _ (hd hc)]
        grind
      | false =>
        simp only [Bool.false_eq_true, if_false, false_and, or_false]
        rw [listNotes_mem _ _ _ _ _ hv]
  · intro p hp
    have hnot : p ∉ r.downs.map Prod.fst := by rw [hvis]; exact fun hx => hp hx
    exact ⟨(C34_flags (formEnv e rules) hl.flags n root st r b hn hb).2 p hnot, hout p hnot⟩


omit [Runtime] in
/-- `all_valid` of an element in a form can be read, and is True iff nothing in that part is marked invalid -/
theorem formAllValid_reads (e : Elem) (root : Pos) (hroot : (elemAt e root).isSome) (st : VState Pos (Pos → List PStr)) :
    ∃ n b, formAllValid e n root st = some b ∧ (b = true ↔ ∀ p, root <+: p → (elemAt e p).isSome → st.flag p ≠ .no) := by
  obtain ⟨n, l, hl⟩ := C38_terminates (childPositions e) root (childPositions_finite_at e root hroot)
  have : ∃ b, formAllValid e n root st = some b := by
    unfold formAllValid getAllValid
    split
    · exact ⟨_, by rw [hl]; rfl⟩
    · exact ⟨false, rfl⟩
  obtain ⟨b, hb⟩ := this
  refine ⟨n, b, hb, ?_⟩
  rw [C38_get (childPositions e) n root st b hb]
  simp only [within_part hroot, and_imp]

/-- **C74.** After the whole form was validated, `all_valid` of any element in it is True iff this element and everything below it obey their validators; for
the form itself it is what `validate()` returned. -/
theorem C74_all_valid (e : Elem) (he : e ≠ .absent) (rules : Pos → FieldRules)
    (h : ∀ p k, elemAt e p = some k → Answers e p (rules p).validators ∧ (containerElem k = true → Answers e p (rules p).descent))
    (st : VState Pos (Pos → List PStr)) :
    ∃ n r b, validateForm e rules n st = some r ∧ r.result = .ok b ∧ (∃ m, formAllValid e m [] r.state = some b) ∧
      ∀ root, (elemAt e root).isSome → ∃ m c, formAllValid e m root r.state = some c ∧
        (c = true ↔ ∀ p k, root <+: p → elemAt e p = some k → Obeys e rules p k) := by
  obtain ⟨r, b, n, hrun, hb, hall, hel, _⟩ := C74_validate e he rules h st
  have key : ∀ root, (elemAt e root).isSome → ∃ m c, formAllValid e m root r.state = some c ∧
      (c = true ↔ ∀ p k, root <+: p → elemAt e p = some k → Obeys e rules p k) := by
    intro root hroot
    obtain ⟨m, c, hc, hiff⟩ := formAllValid_reads e root hroot r.state
    refine ⟨m, c, hc, ?_⟩
    rw [hiff]
    constructor
    · intro hf p k hp hpk
      exact Classical.byContradiction fun ho => hf p hp (by rw [hpk]; rfl) ((hel p k hpk).2.1 ho)
    · intro ho p hp hs
      obtain ⟨k, hpk⟩ := Option.isSome_iff_exists.1 hs
      rw [(hel p k hpk).1 (ho p k hp hpk)]
      nofun
  obtain ⟨m, c, hc, hciff⟩ := key [] (by rw [elemAt_nil e he]; rfl)
  refine ⟨n, r, b, hrun n (Nat.le_refl n), hb, ⟨m, ?_⟩, key⟩
  rw [hc]
  congr 1
  rw [Bool.eq_iff_iff, hciff, hall]
  exact ⟨fun hx p k => hx p k List.nil_prefix, fun hx p k _ => hx p k⟩

/-- **C74.** An element that is validated alone ends up like when the whole form is: same flags and, if there were none before, the same messages, for it and all
below it. -/
theorem C74_part_of_whole (e : Elem) (he : e ≠ .absent) (rules : Pos → FieldRules) (root : Pos) (hroot : (elemAt e root).isSome)
    (h : ∀ p k, elemAt e p = some k → Answers e p (rules p).validators ∧ (containerElem k = true → Answers e p (rules p).descent))
    (st : VState Pos (Pos → List PStr)) :
    ∃ n part whole, validateFormAt e rules n root st = some part ∧ validateForm e rules n st = some whole ∧
      ∀ p, root <+: p → (elemAt e p).isSome →
        part.state.flag p = whole.state.flag p ∧ ∀ text, text ∈ part.state.data p ↔ text ∈ whole.state.data p := by
  obtain ⟨r, b, n, hrun, _, _, hel, _⟩ := C74_part e rules root hroot (fun p k _ => h p k) st
  obtain ⟨r', b', n', hrun', _, _, hel', _⟩ := C74_validate e he rules h st
  refine ⟨n + n', r, r', hrun _ (by omega), hrun' _ (by omega), fun p hp hs => ?_⟩
  obtain ⟨k, hpk⟩ := Option.isSome_iff_exists.1 hs
  obtain ⟨h1, h2, h3⟩ := hel p k hp hpk
  obtain ⟨h1', h2', h3'⟩ := hel' p k hpk
  refine ⟨?_, fun text => by rw [h3, h3']⟩
  rcases Classical.em (Obeys e rules p k) with ho | ho
  · rw [h1 ho, h1' ho]
  · rw [h2 ho, h2' ho]

omit [Runtime] in
/-- **C23.** `all_children` of an element anywhere in a form ends, and lists every element below it, once, and no other: level by level and in document order
within a level (`a < b` is the lexicographic order of positions). -/
theorem C23_part (e : Elem) (root : Pos) (hroot : (elemAt e root).isSome) :
    ∃ n l, formAllChildren e n root = some l ∧ l.Nodup ∧
      (∀ p, p ∈ l ↔ p ≠ root ∧ root <+: p ∧ (elemAt e p).isSome) ∧
      l.Pairwise fun a b => a.length < b.length ∨ (a.length = b.length ∧ a < b) := by
  obtain ⟨n, l, hl⟩ := C38_terminates (childPositions e) root (childPositions_finite_at e root hroot)
  refine ⟨n, l, hl, (allChildrenIds_spec hl).1, fun p => ?_, allChildrenIds_sorted e root n l hl⟩
  rw [(allChildrenIds_spec hl).2, within_part hroot]

/-! ### with Compounds and JoinedStrings -/

/-- **C93.** Validating an element within a form with Compounds and JoinedStrings, say a date alone: as C74_part. -/
theorem C93_part (e : NElem) (rules : Pos → RichField) (root : Pos) (x : NElem) (hx : At e root x)
    (h : ∀ p k, root <+: p → At e p k → Decides e p (rules p).validators ∧ (containerN k = true → Decides e p (rules p).descent))
    (st : VState Pos (Pos → List PStr)) :
    ∃ r b n, (∀ m, n ≤ m → validateRichAt e rules m root st = some r) ∧ r.result = .ok b ∧
      (b = true ↔ ∀ p k, root <+: p → At e p k → Complies e rules p k) ∧
      (∀ p k, root <+: p → At e p k →
        (Complies e rules p k → r.state.flag p = .yes) ∧ (¬ Complies e rules p k → r.state.flag p = .no) ∧
        ∀ text, text ∈ r.state.data p ↔ text ∈ st.data p ∨ Complaint e rules p k text) ∧
      ∀ p, (¬ ∃ k, root <+: p ∧ At e p k) → r.state.flag p = st.flag p ∧ r.state.data p = st.data p := by
  have hat : ∀ p k, At e p k → elemAt (shape e) p = some (shape k) := fun p k hk => (at_iff e p _).2 ⟨k, hk, rfl⟩
  obtain ⟨r, b, n, hrun, hb, hall, hel, hout⟩ := C74_part (shape e) (plainRules e rules) root (by rw [hat root x hx]; rfl) (by
    intro p y hp hy
    obtain ⟨k, hk, rfl⟩ := (at_iff e p y).1 hy
    exact answers_plain e rules p k hk (h p k hp hk).1 (h p k hp hk).2) st
  refine ⟨r, b, n, ?_, hb, ?_, ?_, ?_⟩
  · intro m hm
    rw [validateRichAt, richEnv_eq]
    exact hrun m hm
  · rw [hall]
    constructor
    · intro h p k hp hk
      exact (complies_iff e rules p k hk).1 (h p _ hp (hat p k hk))
    · intro h p y hp hy
      obtain ⟨k, hk, rfl⟩ := (at_iff e p y).1 hy
      exact (complies_iff e rules p k hk).2 (h p k hp hk)
  · intro p k hp hk
    obtain ⟨h1, h2, h3⟩ := hel p _ hp (hat p k hk)
    refine ⟨fun hc => h1 ((complies_iff e rules p k hk).2 hc), fun hc => h2 (fun ho => hc ((complies_iff e rules p k hk).1 ho)), fun text => ?_⟩
    rw [h3 text, complaint_iff e rules p k hk]
  · intro p hp
    refine hout p ?_
    rintro ⟨hpre, hs⟩
    obtain ⟨y, hy⟩ := Option.isSome_iff_exists.1 hs
    obtain ⟨k, hk, _⟩ := (at_iff e p y).1 hy
    exact hp ⟨k, hpre, hk⟩

omit [Runtime] in
/-- **C23.** In a form with Compounds and JoinedStrings `all_children` lists the parts of dates and the pieces of joined strings likewise. -/
theorem C23_rich (e : NElem) (root : Pos) (x : NElem) (hx : At e root x) :
    ∃ n l, richAllChildren e n root = some l ∧ l.Nodup ∧ (∀ p, p ∈ l ↔ p ≠ root ∧ root <+: p ∧ ∃ k, At e p k) ∧
      l.Pairwise fun a b => a.length < b.length ∨ (a.length = b.length ∧ a < b) := by
  obtain ⟨n, l, hl, h1, h2, h3⟩ := C23_part (shape e) root (by rw [(at_iff e root _).2 ⟨x, hx, rfl⟩]; rfl)
  refine ⟨n, l, hl, h1, fun p => ?_, h3⟩
  rw [h2, Option.isSome_iff_exists]
  refine and_congr Iff.rfl (and_congr Iff.rfl ⟨?_, ?_⟩)
  · rintro ⟨y, hy⟩
    obtain ⟨k, hk, _⟩ := (at_iff e p y).1 hy
    exact ⟨k, hk⟩
  · rintro ⟨k, hk⟩
    exact ⟨_, (at_iff e p _).2 ⟨k, hk, rfl⟩⟩

/-- **C93.** After the whole form was validated, `all_valid` of any element in it – a date, a list of joined strings – is True iff this element and everything
below it comply with their validators; for the form itself it is what `validate()` returned. -/
theorem C93_all_valid (e : NElem) (he : e ≠ .absent) (rules : Pos → RichField)
    (h : ∀ p k, At e p k → Decides e p (rules p).validators ∧ (containerN k = true → Decides e p (rules p).descent))
    (st : VState Pos (Pos → List PStr)) :
    ∃ n r b, validateRich e rules n st = some r ∧ r.result = .ok b ∧ (∃ m, richAllValid e m [] r.state = some b) ∧
      ∀ root x, At e root x → ∃ m c, richAllValid e m root r.state = some c ∧
        (c = true ↔ ∀ p k, root <+: p → At e p k → Complies e rules p k) := by
  have hse : shape e ≠ .absent := by cases e <;> simp [shape] at he ⊢
  obtain ⟨n, r, b, hrun, hb, htop, hparts⟩ := C74_all_valid (shape e) hse (plainRules e rules) (by
    intro p x hx
    obtain ⟨k, hk, rfl⟩ := (at_iff e p x).1 hx
    exact answers_plain e rules p k hk (h p k hk).1 (h p k hk).2) st
  refine ⟨n, r, b, ?_, hb, htop, fun root x hx => ?_⟩
  · rw [validateRich, richEnv_eq]
    exact hrun
  · have hat : ∀ p k, At e p k → elemAt (shape e) p = some (shape k) := fun p k hk => (at_iff e p _).2 ⟨k, hk, rfl⟩
    obtain ⟨m, c, hc, hiff⟩ := hparts root (by rw [hat root x hx]; rfl)
    refine ⟨m, c, hc, ?_⟩
    rw [hiff]
    constructor
    · intro h p k hp hk
      exact (complies_iff e rules p k hk).1 (h p _ hp (hat p k hk))
    · intro h p y hp hy
      obtain ⟨k, hk, rfl⟩ := (at_iff e p y).1 hy
      exact (complies_iff e rules p k hk).2 (h p k hp hk)

omit [Runtime] in
/-- **C38.** Assigning `all_valid` to an element within a form marks it and everything below it, and nothing else; reading it again gives what was assigned. -/
theorem C38_part (e : Elem) (root : Pos) (hroot : (elemAt e root).isSome) (x : Flag) (st : VState Pos (Pos → List PStr)) :
    ∃ n st' b, setFormAllValid e n root x st = some st' ∧ formAllValid e n root st' = some b ∧ (b = true ↔ x ≠ .no) ∧ st'.data = st.data ∧
      ∀ p, (root <+: p ∧ (elemAt e p).isSome → st'.flag p = x) ∧ (¬ (root <+: p ∧ (elemAt e p).isSome) → st'.flag p = st.flag p) := by
  obtain ⟨n, l, hl⟩ := C38_terminates (childPositions e) root (childPositions_finite_at e root hroot)
  obtain ⟨st', hset, hdata⟩ : ∃ st', setFormAllValid e n root x st = some st' ∧ st'.data = st.data := by
    refine ⟨_, by unfold setFormAllValid setAllValid; rw [hl]; rfl, ?_⟩
    have gen : ∀ (l : List Pos) (s : VState Pos (Pos → List PStr)), (l.foldl (fun st i => st.setFlag i x) s).data = s.data := by
      intro l
      induction l with
      | nil => intro s; rfl
      | cons i l ih => intro s; rw [List.foldl_cons, ih]; rfl
    rw [gen]; rfl
  have hget : ∃ b, formAllValid e n root st' = some b := by
    unfold formAllValid getAllValid
    split
    · exact ⟨_, by rw [hl]; rfl⟩
    · exact ⟨false, rfl⟩
  obtain ⟨b, hb⟩ := hget
  refine ⟨n, st', b, hset, hb, C38_set_get (childPositions e) n n root x b st st' hset hb, hdata, fun p => ?_⟩
  have := C38_set (childPositions e) n root x st st' hset p
  rwa [within_part hroot] at this

end

/-! ### the form of C74: the age is validated alone -/
section examples
attribute [local instance] Runtime.ascii

def exUntouched : VState Pos (Pos → List PStr) := ⟨fun _ => .unevaluated, fun _ => []⟩

def exPart (p : Pos) : Option (Option Bool × List PStr × Flag × Flag × Option Bool) :=
  (validateFormAt (exForm 3) exRules 9 p exUntouched).map fun r =>
    (r.result.toOption, r.state.data [0], r.state.flag [0], r.state.flag [1], formAllValid (exForm 3) 9 [] r.state)

-- the age alone, the name alone, the form
example : exPart [1] = some (some true, [], .unevaluated, .yes, some true) := by decide +kernel
example : exPart [0] = some (some false, ["short".toList], .no, .unevaluated, some false) := by decide +kernel
example : exPart [] = some (some false, ["short".toList], .no, .yes, some false) := by decide +kernel

-- the hypotheses of the theorems above, for the age, the name and the form
example : ∀ p k, elemAt (exForm 3) p = some k →
    Answers (exForm 3) p (exRules p).validators ∧ (containerElem k = true → Answers (exForm 3) p (exRules p).descent) := by
  intro p k h
  refine ⟨?_, fun _ r hr => by cases hr⟩
  rcases exForm_at 3 p k h with ⟨rfl, rfl⟩ | ⟨rfl, rfl⟩ | ⟨rfl, rfl⟩
  · intro r hr; cases hr
  · intro r hr
    simp only [exRules, exChecks, List.map_cons, List.map_nil, List.mem_cons, List.not_mem_nil, or_false] at hr
    rcases hr with rfl | rfl
    · exact .inr ⟨some "short".toList, "short".toList, .fixed (.single "short".toList), rfl, rfl, (msg_says _).1 rfl, rfl⟩
    · exact .inr ⟨some "missing".toList, "missing".toList, .fixed (.single "missing".toList), rfl, rfl, (msg_says _).1 rfl, rfl⟩
  · intro r hr
    simp only [exRules, exChecks, List.map_cons, List.map_nil, List.mem_singleton] at hr
    subst hr
    exact .inl rfl

-- the date alone, in its form
def exDatePart (p : Pos) : Option (Option Bool × Option Bool × Option Bool) :=
  let f := exDateForm false (exNum 2011) (exNum 2) .fresh .none [] []
  (validateRichAt f.1 f.2 20 p exUntouched).map fun r => (r.result.toOption, richAllValid f.1 20 [0] r.state, richAllValid f.1 20 [0, 1] r.state)
example : exDatePart [0] = some (some false, some false, some true) := by decide +kernel
example : exDatePart [0, 0] = some (some true, some true, some true) := by decide +kernel
example : richAllChildren (exDateForm false (exNum 2011) (exNum 2) .fresh .none [] []).1 9 [] = some [[0], [0, 0], [0, 1], [0, 2]] := by decide +kernel
example : richAllChildren (exDateForm false (exNum 2011) (exNum 2) .fresh .none [] []).1 9 [0] = some [[0, 0], [0, 1], [0, 2]] := by decide +kernel
example : ∃ x, At (exDateForm false (exNum 2011) (exNum 2) .fresh .none [] []).1 [0] x := ⟨_, rfl, nofun⟩

end examples
end Flatland
