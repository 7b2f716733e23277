import Verif.Proofs.Parts
/-! Lemmas for C80: parts of a submitted form at any depth. -/
namespace Flatland
open Spec
section
variable [Runtime]

/-- a part is new if nothing is submitted for it, and set from what is otherwise -/
def FilledFrom (sep : PStr) (s : Schema) (ps : List FPair) (e : Elem) : Prop :=
  (ps = [] → e = fresh s) ∧ (ps ≠ [] → setFlat sep s (fresh s) ps = .ok e)

omit [Runtime] in
theorem fresh_present (s : Schema) : fresh s ≠ .absent := by cases s <;> simp [fresh]

theorem setFlat_present {sep : PStr} {s : Schema} {ps : List FPair} {e : Elem} (h : setFlat sep s (fresh s) ps = .ok e) : e ≠ .absent := by
  cases s with
  | scalar hd t =>
    rw [setFlat, scalarSetFlat] at h
    split at h
    · cases h; simp
    · split at h
      · cases h; simp
      · cases h
  | dict hd mode po fs =>
    obtain ⟨kids, rfl, _⟩ := setFlat_dict_fields h
    simp
  | list hd prune max m =>
    obtain ⟨ms, kids, _, rfl, _⟩ := setFlat_rows h
    simp
  | array hd prune m =>
    cases m with
    | scalar hm t =>
      rw [setFlat] at h
      split at h
      · cases h
      · cases h; simp
    | _ => simp [setFlat] at h

theorem filled_present {sep : PStr} {s : Schema} {ps : List FPair} {e : Elem} (h : FilledFrom sep s ps e) : e ≠ .absent := by
  by_cases h0 : ps = []
  · rw [h.1 h0]; exact fresh_present s
  · exact setFlat_present (h.2 h0)

theorem setFlat_nothing {sep : PStr} {s : Schema} {e : Elem} (h : setFlat sep s (fresh s) [] = .ok e) : e = fresh s := by
  cases s with
  | scalar hd t =>
    rw [setFlat, scalarSetFlat] at h
    simp only [List.find?_nil, fresh, Elem.state, Except.ok.injEq] at h
    rw [← h, fresh]
    rfl
  | dict hd mode po fs =>
    rw [setFlat] at h
    have : dictPossibles sep hd.name [] = .ok [] := by cases hd.name <;> rfl
    rw [this] at h
    simpa [eq_comm] using h
  | list hd prune max m =>
    rw [setFlat] at h
    simp only [listMatches, List.isEmpty_nil, if_true, List.mapM_nil, pure, Except.pure, Except.ok.injEq] at h
    rw [← h, fresh]
  | array hd prune m =>
    cases m with
    | scalar hm t =>
      rw [setFlat] at h
      simp only [arrayMembers, Except.ok.injEq] at h
      rw [← h, fresh]
    | _ => simp [setFlat] at h

theorem setFlat_filled {sep : PStr} {s : Schema} {ps : List FPair} {e : Elem} (h : setFlat sep s (fresh s) ps = .ok e) : FilledFrom sep s ps e :=
  ⟨fun h0 => by subst h0; exact setFlat_nothing h, fun _ => h⟩

/-- a List that nothing is submitted for is empty -/
theorem filled_rows {sep : PStr} {h : Hdr} {prune : Bool} {max : Nat} {m : Schema} {ps : List FPair} {e : Elem}
    (hf : FilledFrom sep (.list h prune max m) ps e) :
    ∃ ms kids, listMatches sep h.name prune ps = .ok ms ∧ e = .list h.name kids ∧
      ((rowNumbers prune ms).take max).mapM (fun i =>
          if (subPairs ms i).isEmpty then .ok (fresh m) else setFlat sep m (fresh m) (subPairs ms i)) = .ok kids := by
  by_cases h0 : ps = []
  · subst h0
    exact ⟨[], [], rfl, by rw [hf.1 rfl, fresh], by simp [rowNumbers, pure, Except.pure]⟩
  · exact setFlat_rows (hf.2 h0)

theorem filled_fields {sep : PStr} {h : Hdr} {mode : DictMode} {po : Policy} {fs : List Schema} {ps : List FPair} {e : Elem}
    (hf : FilledFrom sep (.dict h mode po fs) ps e) :
    ∃ kids, e = .dict h.name kids ∧ kids.length = fs.length ∧ ∀ (i : Nat) f k, fs[i]? = some f → kids[i]? = some k →
      ∃ accum, Handed (LeadsInto sep (.dict h mode po fs) (.field i)) ps accum ∧
        (if accum.isEmpty then .ok (if autoField mode f then fresh f else .absent) else setFlat sep f (fresh f) accum) = .ok k := by
  by_cases h0 : ps = []
  · subst h0
    refine ⟨freshFields mode fs, by rw [hf.1 rfl, fresh], freshFields_length .., ?_⟩
    intro i f k hfi hk
    rw [freshFields_get mode fs i f hfi] at hk
    exact ⟨[], .nil, by simpa using hk⟩
  · exact setFlat_dict_fields (hf.2 h0)

/-- one step down: the part is there and is filled from what is handed to it -/
theorem filled_down {sep : PStr} (hs : GoodSep sep) (hnl : sep ≠ ['\n']) {s s' : Schema} {a : Step} {j : Nat} {ps ps' : List FPair} {e : Elem}
    (hf : FilledFrom sep s ps e) (hp : partSchema s a = some s') (ht : PartThere sep ps s a j) (hh : Handed (LeadsInto sep s a) ps ps') :
    ∃ k, e.kids[j]? = some k ∧ FilledFrom sep s' ps' k := by
  cases s with
  | scalar => cases a <;> simp [partSchema] at hp
  | array => cases a <;> simp [partSchema] at hp
  | dict h mode po fs =>
    cases a with
    | row => simp [partSchema] at hp
    | field i =>
      simp only [partSchema] at hp
      obtain ⟨rfl, f, hfi, hthere⟩ := ht
      rw [hp] at hfi
      cases hfi
      obtain ⟨kids, rfl, hl, hall⟩ := filled_fields hf
      have hi : j < kids.length := by rw [hl]; exact (List.getElem?_eq_some_iff.1 hp).1
      obtain ⟨accum, ha, hk⟩ := hall j s' kids[j] hp (List.getElem?_eq_getElem hi)
      have : accum = ps' := handed_unique (leadsInto_functional hs hnl _ _) ha hh
      subst this
      refine ⟨kids[j], List.getElem?_eq_getElem hi, ?_, ?_⟩
      · intro h0
        subst h0
        simp only [List.isEmpty_nil, if_true, Except.ok.injEq] at hk
        rcases hthere with hau | ⟨kv, hkv, r, hr⟩
        · rw [hau] at hk; exact hk.symm
        · exact absurd rfl ((handed_nonempty hh).2 ⟨kv, hkv, r, hr⟩)
      · intro h0
        rw [if_neg (by simpa using h0)] at hk
        exact hk
  | list h prune max m =>
    cases a with
    | field => simp [partSchema] at hp
    | row i =>
      simp only [partSchema, Option.some.injEq] at hp
      subst hp
      obtain ⟨hmade, hbelow, hmax⟩ := ht
      obtain ⟨ms, kids, hm, rfl, hk⟩ := filled_rows hf
      have hnum := (sorted_below (rowNumbers_sorted prune ms) (mem_rowNumbers hs hnl h prune max m hm) i j).2 ⟨hmade, hbelow⟩
      obtain ⟨hlen, hall⟩ := mapM_ok hk
      have htake : ((rowNumbers prune ms).take max)[j]? = some i := by rw [List.getElem?_take, if_pos hmax, hnum]
      have hj : j < kids.length := by rw [hlen]; exact (List.getElem?_eq_some_iff.1 htake).1
      have hthis := hall j i kids[j] htake (List.getElem?_eq_getElem hj)
      have : subPairs ms i = ps' := handed_unique (leadsInto_functional hs hnl _ _) (listMatches_handed hs hnl h prune max m i ps ms hm) hh
      rw [this] at hthis
      refine ⟨kids[j], List.getElem?_eq_getElem hj, ?_, ?_⟩
      · intro h0
        subst h0
        simpa [eq_comm] using hthis
      · intro h0
        rw [if_neg (by simpa using h0)] at hthis
        exact hthis

/-- one step up: every child that is there is such a part -/
theorem filled_child {sep : PStr} (hs : GoodSep sep) (hnl : sep ≠ ['\n']) {s : Schema} {j : Nat} {ps : List FPair} {e k : Elem}
    (hf : FilledFrom sep s ps e) (hk : e.kids[j]? = some k) (hne : k ≠ .absent) (hna : ∀ h prune m, s ≠ .array h prune m) :
    ∃ a s' ps', partSchema s a = some s' ∧ PartThere sep ps s a j ∧ Handed (LeadsInto sep s a) ps ps' := by
  cases s with
  | scalar h t =>
    exfalso
    have : e.kids = [] := by
      by_cases h0 : ps = []
      · rw [hf.1 h0]; rfl
      · have := hf.2 h0
        rw [setFlat, scalarSetFlat] at this
        split at this
        · cases this; rfl
        · split at this
          · cases this; rfl
          · cases this
    rw [this] at hk
    simp at hk
  | array h prune m => exact absurd rfl (hna h prune m)
  | dict h mode po fs =>
    obtain ⟨kids, rfl, hl, hall⟩ := filled_fields hf
    simp only [Elem.kids] at hk
    have hj : j < fs.length := by rw [← hl]; exact (List.getElem?_eq_some_iff.1 hk).1
    obtain ⟨accum, ha, hk'⟩ := hall j fs[j] k (List.getElem?_eq_getElem hj) hk
    refine ⟨.field j, fs[j], accum, List.getElem?_eq_getElem hj, ⟨rfl, fs[j], List.getElem?_eq_getElem hj, ?_⟩, ha⟩
    by_cases h0 : accum = []
    · subst h0
      simp only [List.isEmpty_nil, if_true, Except.ok.injEq] at hk'
      cases hau : autoField mode fs[j]
      · rw [hau] at hk'
        exact absurd hk'.symm hne
      · exact .inl rfl
    · exact .inr ((handed_nonempty ha).1 h0)
  | list h prune max m =>
    obtain ⟨ms, kids, hm, rfl, hkids⟩ := filled_rows hf
    simp only [Elem.kids] at hk
    obtain ⟨hlen, hall⟩ := mapM_ok hkids
    have hj : j < ((rowNumbers prune ms).take max).length := by rw [← hlen]; exact (List.getElem?_eq_some_iff.1 hk).1
    have hj' : j < max ∧ j < (rowNumbers prune ms).length := by simp at hj; omega
    have hi : (rowNumbers prune ms)[j]? = some ((rowNumbers prune ms)[j]'hj'.2) := List.getElem?_eq_getElem hj'.2
    have := (sorted_below (rowNumbers_sorted prune ms) (mem_rowNumbers hs hnl h prune max m hm) _ j).1 hi
    exact ⟨.row _, m, _, rfl, ⟨this.1, this.2, hj'.1⟩, listMatches_handed hs hnl h prune max m _ ps ms hm⟩

omit [Runtime] in
theorem elemAt_kid {e k : Elem} {j : Nat} {pos : Pos} (hk : e.kids[j]? = some k) : elemAt e (j :: pos) = elemAt k pos := by
  cases e <;> simp [Elem.kids] at hk <;> simp [elemAt, Elem.kids, hk]

omit [Runtime] in
theorem elemAt_here {e : Elem} (h : e ≠ .absent) : elemAt e [] = some e := by cases e <;> simp_all [elemAt]

theorem part_filled {sep : PStr} (hs : GoodSep sep) (hnl : sep ≠ ['\n']) {s s' : Schema} {ps ps' : List FPair} {way : List Step} {pos : Pos}
    (hp : PartOf sep s ps way s' ps' pos) : ∀ e, FilledFrom sep s ps e → ∃ k, elemAt e pos = some k ∧ FilledFrom sep s' ps' k := by
  induction hp with
  | here => intro e hf; exact ⟨e, elemAt_here (filled_present hf), hf⟩
  | down h1 h2 h3 _ ih =>
    intro e hf
    obtain ⟨k, hk, hfk⟩ := filled_down hs hnl hf h1 h2 h3
    obtain ⟨k', hk', hf'⟩ := ih k hfk
    exact ⟨k', by rw [elemAt_kid hk, hk'], hf'⟩

theorem array_kids {sep : PStr} {h : Hdr} {prune : Bool} {m : Schema} {ps : List FPair} {e : Elem} (hf : FilledFrom sep (.array h prune m) ps e) :
    ∃ kids, e = .array h.name kids ∧ ∀ k ∈ kids, ∃ n st, k = .scalar n st := by
  by_cases h0 : ps = []
  · exact ⟨[], by rw [hf.1 h0, fresh], by simp⟩
  · have := hf.2 h0
    cases m with
    | scalar hm t =>
      rw [setFlat] at this
      cases ha : arrayMembers sep h.name prune hm t ps with
      | error er => rw [ha] at this; cases this
      | ok kids =>
        rw [ha] at this
        refine ⟨kids, by cases this; rfl, ?_⟩
        clear this h0 hf
        induction ps generalizing kids with
        | nil => cases ha; simp
        | cons p ps ih =>
          rw [arrayMembers] at ha
          cases hpick : arrayPick sep h.name hm.name prune p with
          | error er => rw [hpick] at ha; simp [bind, Except.bind] at ha
          | ok o =>
            rw [hpick] at ha
            cases o with
            | none => exact ih kids ha
            | some key =>
              simp only [bind, Except.bind] at ha
              cases hm' : scalarSetFlat hm.name t .fresh [(key, p.2)] with
              | error er => rw [hm'] at ha; simp at ha
              | ok mem =>
                rw [hm'] at ha
                cases hr : arrayMembers sep h.name prune hm t ps with
                | error er => rw [hr] at ha; simp at ha
                | ok rest =>
                  rw [hr] at ha
                  simp only [Except.ok.injEq] at ha
                  subst ha
                  intro k hk
                  rcases List.mem_cons.1 hk with rfl | hk
                  · rw [scalarSetFlat] at hm'
                    split at hm'
                    · cases hm'; exact ⟨_, _, rfl⟩
                    · split at hm'
                      · cases hm'; exact ⟨_, _, rfl⟩
                      · cases hm'
                  · exact ih rest hr k hk
    | _ => simp [setFlat] at this

theorem elem_is_part {sep : PStr} (hs : GoodSep sep) (hnl : sep ≠ ['\n']) : ∀ (pos : Pos) (s : Schema) (ps : List FPair) (e k : Elem),
    FilledFrom sep s ps e → elemAt e pos = some k →
    (∃ way s' ps', PartOf sep s ps way s' ps' pos) ∨
    (∃ way h prune m ps' pos' j, PartOf sep s ps way (.array h prune m) ps' pos' ∧ pos = pos' ++ [j] ∧ ∃ n st, k = .scalar n st)
  | [], s, ps, e, k, _, _ => .inl ⟨[], s, ps, .here⟩
  | j :: pos, s, ps, e, k, hf, hk => by
    have hkid : ∃ c, e.kids[j]? = some c := by
      cases hc : e.kids[j]? with
      | some c => exact ⟨c, rfl⟩
      | none =>
        cases e <;> simp only [elemAt] at hk <;> (try cases hk) <;> simp_all
    obtain ⟨c, hc⟩ := hkid
    rw [elemAt_kid hc] at hk
    have hcne : c ≠ .absent := by rintro rfl; simp [elemAt] at hk
    by_cases harr : ∃ h prune m, s = .array h prune m
    · obtain ⟨h, prune, m, rfl⟩ := harr
      refine .inr ⟨[], h, prune, m, ps, [], j, .here, ?_, ?_⟩
      · obtain ⟨kids, rfl, hall⟩ := array_kids hf
        obtain ⟨n, st, rfl⟩ := hall c (List.mem_of_getElem? hc)
        cases pos with
        | nil => rfl
        | cons => simp [elemAt, Elem.kids] at hk
      · obtain ⟨kids, rfl, hall⟩ := array_kids hf
        obtain ⟨n, st, rfl⟩ := hall c (List.mem_of_getElem? hc)
        cases pos with
        | nil => simp only [elemAt, Option.some.injEq] at hk; exact ⟨n, st, hk.symm⟩
        | cons => simp [elemAt, Elem.kids] at hk
    · obtain ⟨a, s', ps', h1, h2, h3⟩ := filled_child hs hnl hf hc hcne (fun h prune m he => harr ⟨h, prune, m, he⟩)
      obtain ⟨c', hc', hfc⟩ := filled_down hs hnl hf h1 h2 h3
      rw [hc] at hc'
      cases hc'
      rcases elem_is_part hs hnl pos s' ps' c k hfc hk with ⟨way, s'', ps'', hp⟩ | ⟨way, h, prune, m, ps'', pos', j', hp, rfl, hsc⟩
      · exact .inl ⟨a :: way, s'', ps'', .down h1 h2 h3 hp⟩
      · exact .inr ⟨a :: way, h, prune, m, ps'', j :: pos', j', .down h1 h2 h3 hp, rfl, hsc⟩

omit [Runtime] in
theorem exactlyBelow_unique {P : Nat → Prop} {i j j' : Nat} (h : ExactlyBelow P i j) (h' : ExactlyBelow P i j') : j = j' := by
  obtain ⟨l, hs, hm, rfl⟩ := h
  obtain ⟨l', hs', hm', rfl⟩ := h'
  rw [sorted_ext hs hs' fun x => by rw [hm, hm']]

omit [Runtime] in
theorem exactlyBelow_strict {P : Nat → Prop} {i i' j j' : Nat} (hi : P i) (hlt : i < i') (h : ExactlyBelow P i j) (h' : ExactlyBelow P i' j') :
    j < j' := by
  obtain ⟨l, hs, hm, rfl⟩ := h
  obtain ⟨l', hs', hm', rfl⟩ := h'
  have h1 : l'.Pairwise (· < ·) := hs'
  have hmem : i ∈ l' := (hm' i).2 ⟨hlt, hi⟩
  obtain ⟨a, ha⟩ := List.getElem?_of_mem hmem
  obtain ⟨_, hb⟩ := (sorted_below hs' (P := fun x => x ∈ l') (fun _ => Iff.rfl) i a).1 ha
  have hl : ExactlyBelow (fun x => x ∈ l') i l.length := by
    refine ⟨l, hs, ?_, rfl⟩
    intro x
    rw [hm]
    show _ ↔ x < i ∧ x ∈ l'
    rw [hm']
    constructor
    · rintro ⟨h1, h2⟩; exact ⟨h1, by omega, h2⟩
    · rintro ⟨h1, h2, h3⟩; exact ⟨h1, h3⟩
  rw [exactlyBelow_unique hl hb]
  exact (List.getElem?_eq_some_iff.1 ha).1

theorem partThere_inj {sep : PStr} {s : Schema} {a a' : Step} {j : Nat} {ps : List FPair} (h : PartThere sep ps s a j) (h' : PartThere sep ps s a' j) :
    a = a' := by
  cases s <;> cases a <;> cases a' <;> simp only [PartThere] at h h'
  · rw [← h.1, ← h'.1]
  · obtain ⟨h1, h2, _⟩ := h
    obtain ⟨h1', h2', _⟩ := h'
    rename_i i i' _ _
    rcases Nat.lt_trichotomy i i' with hlt | rfl | hlt
    · exact absurd (exactlyBelow_strict h1 hlt h2 h2') (by omega)
    · rfl
    · exact absurd (exactlyBelow_strict h1' hlt h2' h2) (by omega)

theorem partThere_fun {sep : PStr} {s : Schema} {a : Step} {j j' : Nat} {ps : List FPair} (h : PartThere sep ps s a j) (h' : PartThere sep ps s a j') :
    j = j' := by
  cases s <;> cases a <;> simp only [PartThere] at h h'
  · rw [h.1, h'.1]
  · exact exactlyBelow_unique h.2.1 h'.2.1

theorem part_way {sep : PStr} (hs : GoodSep sep) (hnl : sep ≠ ['\n']) {s s₁ s₂ : Schema} {ps ps₁ ps₂ : List FPair} {way : List Step} {pos₁ pos₂ : Pos}
    (h : PartOf sep s ps way s₁ ps₁ pos₁) : PartOf sep s ps way s₂ ps₂ pos₂ → s₁ = s₂ ∧ ps₁ = ps₂ ∧ pos₁ = pos₂ := by
  induction h generalizing pos₂ with
  | here => intro h'; cases h'; exact ⟨rfl, rfl, rfl⟩
  | down h1 h2 h3 _ ih =>
    intro h'
    cases h' with
    | down h1' h2' h3' h4' =>
      rw [h1] at h1'
      cases h1'
      cases handed_unique (leadsInto_functional hs hnl _ _) h3 h3'
      cases partThere_fun h2 h2'
      obtain ⟨e1, e2, e3⟩ := ih h4'
      exact ⟨e1, e2, by rw [e3]⟩

theorem part_pos {sep : PStr} (hs : GoodSep sep) (hnl : sep ≠ ['\n']) {s s₁ s₂ : Schema} {ps ps₁ ps₂ : List FPair} {way₁ way₂ : List Step} {pos : Pos}
    (h : PartOf sep s ps way₁ s₁ ps₁ pos) : PartOf sep s ps way₂ s₂ ps₂ pos → way₁ = way₂ := by
  induction h generalizing way₂ with
  | here => intro h'; cases h'; rfl
  | down h1 h2 h3 _ ih =>
    intro h'
    cases h' with
    | down h1' h2' h3' h4' =>
      cases partThere_inj h2 h2'
      rw [h1] at h1'
      cases h1'
      cases handed_unique (leadsInto_functional hs hnl _ _) h3 h3'
      rw [ih h4']

omit [Runtime] in
theorem handed_comp {R S T : Option PStr → PStr → Option PStr → Prop} (hR : ∀ k v r r', R k v r → R k v r' → r = r')
    (hT : ∀ k v r, T k v r ↔ ∃ q, R k v q ∧ S q v r) {ps qs : List FPair} (h1 : Handed R ps qs) :
    ∀ {rs : List FPair}, Handed S qs rs → Handed T ps rs := by
  induction h1 with
  | nil => intro rs h2; cases h2; exact .nil
  | take hr _ ih =>
    intro rs h2
    cases h2 with
    | take hs' h2 => exact .take ((hT _ _ _).2 ⟨_, hr, hs'⟩) (ih h2)
    | skip hn h2 =>
      refine .skip ?_ (ih h2)
      intro r ht
      obtain ⟨q, hq, hsq⟩ := (hT _ _ _).1 ht
      cases hR _ _ _ _ hr hq
      exact hn r hsq
  | skip hn _ ih =>
    intro rs h2
    refine .skip ?_ (ih h2)
    intro r ht
    obtain ⟨q, hq, _⟩ := (hT _ _ _).1 ht
    exact hn q hq

omit [Runtime] in
theorem handed_all (R : Option PStr → PStr → Option PStr → Prop) (hR : ∀ k v r, R k v r ↔ r = k) (ps : List FPair) : Handed R ps ps := by
  induction ps with
  | nil => exact .nil
  | cons x ps ih => exact .take ((hR _ _ _).2 rfl) ih

theorem part_handed {sep : PStr} (hs : GoodSep sep) (hnl : sep ≠ ['\n']) {s s' : Schema} {ps ps' : List FPair} {way : List Step} {pos : Pos}
    (h : PartOf sep s ps way s' ps' pos) : Handed (Leads sep s way) ps ps' := by
  induction h with
  | here =>
    apply handed_all
    intro k v r
    constructor
    · intro h; cases h; rfl
    · rintro rfl; exact .here
  | down h1 _ h3 _ ih =>
    refine handed_comp (leadsInto_functional hs hnl _ _) ?_ h3 ih
    intro k v r
    constructor
    · intro h
      cases h with
      | down h1' hl h' =>
        rw [h1] at h1'
        cases h1'
        exact ⟨_, hl, h'⟩
    · rintro ⟨q, hq, hl⟩
      exact .down h1 hq hl

omit [Runtime] in
/-- the first value of the pairs handed on -/
theorem handed_first {R : Option PStr → PStr → Option PStr → Prop} (hR : ∀ k v r r', R k v r → R k v r' → r = r') (n : Option PStr)
    {ps l : List FPair} (h : Handed R ps l) :
    FirstValue (fun k v => R k v n) ps ((l.find? fun p => p.1 == n).map Prod.snd) := by
  induction h with
  | nil => exact .none (by simp)
  | @take k v r ps l hr _ ih =>
    by_cases hn : r = n
    · subst hn
      simp only [List.find?_cons, beq_self_eq_true, Option.map_some]
      exact .some (before := []) rfl hr (by simp)
    · have : (r == n) = false := by simpa using hn
      simp only [List.find?_cons, this]
      have hno : ¬ R k v n := fun h => hn (hR _ _ _ _ hr h)
      generalize hx : (l.find? fun p => p.1 == n).map Prod.snd = x at ih
      cases ih with
      | none hall => exact .none (by simpa using ⟨hno, fun a b h => hall (a, b) h⟩)
      | @some before after k' v' heq hp hall =>
        exact .some (before := (k, v) :: before) (by rw [heq]; rfl) hp (by
          intro kv hkv
          rcases List.mem_cons.1 hkv with rfl | hkv
          · exact hno
          · exact hall kv hkv)
  | @skip k v ps l hn _ ih =>
    generalize hx : (l.find? fun p => p.1 == n).map Prod.snd = x at ih
    cases ih with
    | none hall => exact .none (by simpa using ⟨hn n, fun a b h => hall (a, b) h⟩)
    | @some before after k' v' heq hp hall =>
      exact .some (before := (k, v) :: before) (by rw [heq]; rfl) hp (by
        intro kv hkv
        rcases List.mem_cons.1 hkv with rfl | hkv
        · exact hn n
        · exact hall kv hkv)

omit [Runtime] in
theorem firstValue_unique {P : Option PStr → PStr → Prop} {ps : List FPair} {v w : Option PStr} (h1 : FirstValue P ps v) (h2 : FirstValue P ps w) : v = w := by
  cases h1 with
  | none hn =>
    cases h2 with
    | none _ => rfl
    | @some b a k x he hp _ => subst he; exact absurd hp (hn (k, x) (by simp))
  | @some b a k x he hp hb =>
    cases h2 with
    | none hn => subst he; exact absurd hp (hn (k, x) (by simp))
    | @some b' a' k' x' he' hp' hb' =>
      rw [he] at he'
      rcases List.append_eq_append_iff.1 he' with ⟨c, h1, h2⟩ | ⟨c, h1, h2⟩
      · cases c with
        | nil => simp at h2; simp [h2.1.2]
        | cons y c =>
          simp only [List.cons_append, List.cons.injEq] at h2
          exact absurd hp (hb' (k, x) (by rw [h1]; simp [h2.1]))
      · cases c with
        | nil => simp at h2; simp [h2.1.2]
        | cons y c =>
          simp only [List.cons_append, List.cons.injEq] at h2
          exact absurd hp' (hb (k', x') (by rw [h1]; simp [h2.1]))

theorem leads_functional {sep : PStr} (hs : GoodSep sep) (hnl : sep ≠ ['\n']) {way : List Step} : ∀ (s : Schema) (k : Option PStr) (v : PStr) (r r' : Option PStr),
    Leads sep s way k v r → Leads sep s way k v r' → r = r' := by
  induction way with
  | nil => intro s k v r r' h h'; cases h; cases h'; rfl
  | cons a way ih =>
    intro s k v r r' h h'
    cases h with
    | down h1 h2 h3 =>
      cases h' with
      | down h1' h2' h3' =>
        rw [h1] at h1'
        cases h1'
        cases leadsInto_functional hs hnl _ _ _ _ _ _ h2 h2'
        exact ih _ _ _ _ _ h3 h3'

theorem filled_scalar {sep : PStr} {h : Hdr} {t : ScalarType} {ps : List FPair} {e : Elem} (hf : FilledFrom sep (.scalar h t) ps e) :
    ∃ st, e = .scalar h.name st ∧ st.value = (afterSubmission t .fresh ((ps.find? fun p => p.1 == h.name).map Prod.snd)).value ∧
      st.u = (afterSubmission t .fresh ((ps.find? fun p => p.1 == h.name).map Prod.snd)).u := by
  by_cases h0 : ps = []
  · subst h0
    exact ⟨.fresh, by rw [hf.1 rfl, fresh], rfl, rfl⟩
  · have := hf.2 h0
    rw [setFlat, scalarSetFlat] at this
    split at this
    · rename_i hn
      cases this
      rw [hn]
      exact ⟨_, rfl, rfl, rfl⟩
    · rename_i p hp
      split at this
      · rename_i st' x hst
        cases this
        rw [hp]
        refine ⟨st', rfl, ?_⟩
        have hfr : ({ (fresh (.scalar h t)).state with raw := .none } : ScalarState) = .fresh := rfl
        rw [hfr] at hst
        simp only [Option.map_some, afterSubmission, hst, and_self]
      · cases this

theorem rowForm_part {sep : PStr} {s s' : Schema} {ps ps' : List FPair} {way : List Step} {pos : Pos}
    (hp : PartOf sep s ps way s' ps' pos) : RowForm s → RowForm s' := by
  induction hp with
  | here => exact id
  | @down s ps a s' _ _ _ _ _ _ h1 _ _ _ ih =>
    intro hs
    apply ih
    cases hs with
    | scalar => cases a <;> simp [partSchema] at h1
    | dict h mode po fs hall =>
      cases a with
      | row => simp [partSchema] at h1
      | field i => exact hall _ (List.mem_of_getElem? h1)
    | list h prune max m hm =>
      cases a with
      | field => simp [partSchema] at h1
      | row i =>
        simp only [partSchema, Option.some.injEq] at h1
        subst h1
        exact hm

theorem filled_list_blank {sep : PStr} (hs : GoodSep sep) (hnl : sep ≠ ['\n']) {h : Hdr} {prune : Bool} {max : Nat} {m : Schema} {ps : List FPair} {k : Elem}
    (hf : FilledFrom sep (.list h prune max m) ps k) (c : FieldRules) :
    IsBlank c k ↔ ¬ (0 < max ∧ ∃ i, RowMade sep (.list h prune max m) prune ps i) := by
  obtain ⟨ms, kids, hm, rfl, hk⟩ := filled_rows hf
  have hlen := (mapM_ok hk).1
  have hmem := mem_rowNumbers hs hnl h prune max m hm
  simp only [IsBlank]
  rw [← List.length_eq_zero_iff, hlen, List.length_take]
  constructor
  · rintro h0 ⟨h1, i, hi⟩
    have := List.length_pos_of_mem ((hmem i).2 hi)
    omega
  · intro hno
    rcases Nat.eq_zero_or_pos max with h0 | h0
    · omega
    · cases hr : rowNumbers prune ms with
      | nil => simp
      | cons i rest => exact absurd ⟨h0, i, (hmem i).1 (by rw [hr]; simp)⟩ hno

theorem filled_dict_blank {sep : PStr} (hs : GoodSep sep) (hnl : sep ≠ ['\n']) {h : Hdr} {mode : DictMode} {po : Policy} {fs : List Schema} {ps : List FPair}
    {k : Elem} (hf : FilledFrom sep (.dict h mode po fs) ps k) (c : FieldRules) :
    IsBlank c k ↔ c.sparse = true ∧ ¬ ∃ a j, PartThere sep ps (.dict h mode po fs) a j := by
  obtain ⟨kids, hke, hl, hall⟩ := filled_fields hf
  rw [hke]
  simp only [IsBlank]
  refine and_congr_right fun _ => ⟨?_, ?_⟩
  · rintro habs ⟨a, j, ht⟩
    cases a with
    | row => exact ht
    | field i =>
      obtain ⟨rfl, f, hfi, hthere⟩ := ht
      have hj : j < kids.length := by rw [hl]; exact (List.getElem?_eq_some_iff.1 hfi).1
      obtain ⟨accum, ha, _⟩ := hall j f kids[j] hfi (List.getElem?_eq_getElem hj)
      obtain ⟨k', hk', hfk⟩ := filled_down hs hnl hf (a := .field j) (s' := f) hfi ⟨rfl, f, hfi, hthere⟩ ha
      rw [hke] at hk'
      exact filled_present hfk (habs k' (List.mem_of_getElem? hk'))
  · intro hno k' hk'
    by_cases h0 : k' = .absent
    · exact h0
    · obtain ⟨j, hj⟩ := List.getElem?_of_mem hk'
      obtain ⟨a, _, _, _, ht, _⟩ := filled_child hs hnl hf (j := j) (k := k') (by rw [hke]; exact hj) h0 (by intros; simp)
      exact absurd ⟨a, j, ht⟩ hno

end
end Flatland
