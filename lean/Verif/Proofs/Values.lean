import Verif.Spec.Values
import Verif.Proofs.SetFlat
import Verif.Proofs.Equality
/-! Lemmas about values, set and defaults of trees. -/
namespace Flatland
open Flatland.Spec

/-! ### value and text -/

theorem pyJoin_commas : ∀ l : List PStr, pyJoin [',', ' '] l = commas l
  | [] => rfl
  | [_] => rfl
  | p :: q :: ps => by rw [pyJoin, pyJoin_commas (q :: ps), commas]; rfl

theorem quoted_spec (repr : PStr → PStr) (k : Elem) (t : PStr) :
    (IsScalar k → (if k.flattenable then repr t else t) = repr t) ∧ (¬ IsScalar k → (if k.flattenable then repr t else t) = t) := by
  cases k <;> simp [IsScalar, Elem.flattenable]

mutual
theorem shows_self (repr : PStr → PStr) : ∀ e : Elem, Shows repr e (elemValue e) (elemU repr e)
  | .scalar _ _ => by simp [Shows, elemValue, elemU]
  | .absent => by simp [Shows, elemValue, elemU]
  | .dict _ ks => by
    rw [Shows, elemValue, elemU, pyJoin_commas]
    exact ⟨_, _, rfl, rfl, showsItems_self repr ks⟩
  | .list _ ks => by
    rw [Shows, elemValue, elemU, pyJoin_commas]
    exact ⟨_, _, rfl, rfl, showsMembers_self repr ks⟩
  | .array _ ks => by
    rw [Shows, elemValue, elemU, pyJoin_commas]
    exact ⟨_, _, rfl, rfl, showsMembers_self repr ks⟩
theorem showsItems_self (repr : PStr → PStr) : ∀ ks : List Elem, ShowsItems repr ks (kidItems ks) (kidPairTexts repr ks)
  | [] => by simp [ShowsItems, kidItems, kidPairTexts]
  | k :: ks => by
    rw [ShowsItems, kidItems, kidPairTexts]
    by_cases hk : k = .absent
    · subst hk
      exact .inl ⟨rfl, showsItems_self repr ks⟩
    · have hp : k.present = true := by cases k <;> simp_all [Elem.present]
      rw [hp]
      exact .inr ⟨_, _, _, _, _, hk, shows_self repr k, (quoted_spec repr k _).1, (quoted_spec repr k _).2, rfl, by simp, showsItems_self repr ks⟩
theorem showsMembers_self (repr : PStr → PStr) : ∀ ks : List Elem, ShowsMembers repr ks (kidValues ks) (kidTexts repr ks)
  | [] => by simp [ShowsMembers, kidValues, kidTexts]
  | k :: ks => by
    rw [ShowsMembers, kidValues, kidTexts]
    exact ⟨_, _, _, _, _, shows_self repr k, (quoted_spec repr k _).1, (quoted_spec repr k _).2, rfl, rfl, showsMembers_self repr ks⟩
end

theorem quoted_det {repr : PStr → PStr} {k : Elem} {t a b : PStr} (ha : IsScalar k → a = repr t) (ha' : ¬ IsScalar k → a = t)
    (hb : IsScalar k → b = repr t) (hb' : ¬ IsScalar k → b = t) : a = b := by
  by_cases h : IsScalar k
  · rw [ha h, hb h]
  · rw [ha' h, hb' h]

mutual
theorem shows_det (repr : PStr → PStr) : ∀ (e : Elem) {v v' : PyVal} {t t' : PStr}, Shows repr e v t → Shows repr e v' t' → v = v' ∧ t = t'
  | .scalar _ _, _, _, _, _, h, h' => by rw [Shows] at h h'; grind
  | .absent, _, _, _, _, h, h' => by rw [Shows] at h h'; grind
  | .dict _ ks, _, _, _, _, h, h' => by
    rw [Shows] at h h'
    obtain ⟨a, b, rfl, rfl, h⟩ := h
    obtain ⟨a', b', rfl, rfl, h'⟩ := h'
    obtain ⟨rfl, rfl⟩ := showsItems_det repr ks h h'
    exact ⟨rfl, rfl⟩
  | .list _ ks, _, _, _, _, h, h' => by
    rw [Shows] at h h'
    obtain ⟨a, b, rfl, rfl, h⟩ := h
    obtain ⟨a', b', rfl, rfl, h'⟩ := h'
    obtain ⟨rfl, rfl⟩ := showsMembers_det repr ks h h'
    exact ⟨rfl, rfl⟩
  | .array _ ks, _, _, _, _, h, h' => by
    rw [Shows] at h h'
    obtain ⟨a, b, rfl, rfl, h⟩ := h
    obtain ⟨a', b', rfl, rfl, h'⟩ := h'
    obtain ⟨rfl, rfl⟩ := showsMembers_det repr ks h h'
    exact ⟨rfl, rfl⟩
theorem showsItems_det (repr : PStr → PStr) : ∀ (ks : List Elem) {v v' : List (PStr × PyVal)} {t t' : List PStr},
    ShowsItems repr ks v t → ShowsItems repr ks v' t' → v = v' ∧ t = t'
  | [], _, _, _, _, h, h' => by rw [ShowsItems] at h h'; grind
  | k :: ks, _, _, _, _, h, h' => by
    rw [ShowsItems] at h h'
    rcases h with ⟨hk, h⟩ | ⟨v, t, q, items, ts, hk, hs, hq, hq', rfl, rfl, h⟩
    · rcases h' with ⟨_, h'⟩ | ⟨_, _, _, _, _, hk', _⟩
      · exact showsItems_det repr ks h h'
      · exact absurd hk hk'
    · rcases h' with ⟨hk', _⟩ | ⟨v', t', r, items', ts', _, hs', hr, hr', rfl, rfl, h'⟩
      · exact absurd hk' hk
      · obtain ⟨rfl, rfl⟩ := shows_det repr k hs hs'
        obtain ⟨rfl, rfl⟩ := showsItems_det repr ks h h'
        obtain rfl := quoted_det hq hq' hr hr'
        exact ⟨rfl, rfl⟩
theorem showsMembers_det (repr : PStr → PStr) : ∀ (ks : List Elem) {v v' : List PyVal} {t t' : List PStr},
    ShowsMembers repr ks v t → ShowsMembers repr ks v' t' → v = v' ∧ t = t'
  | [], _, _, _, _, h, h' => by rw [ShowsMembers] at h h'; grind
  | k :: ks, _, _, _, _, h, h' => by
    rw [ShowsMembers] at h h'
    obtain ⟨v, t, q, items, ts, hs, hq, hq', rfl, rfl, h⟩ := h
    obtain ⟨v', t', r, items', ts', hs', hr, hr', rfl, rfl, h'⟩ := h'
    obtain ⟨rfl, rfl⟩ := shows_det repr k hs hs'
    obtain ⟨rfl, rfl⟩ := showsMembers_det repr ks h h'
    obtain rfl := quoted_det hq hq' hr hr'
    exact ⟨rfl, rfl⟩
end

/-- value and text are determined by the description -/
theorem shows_iff (repr : PStr → PStr) (e : Elem) (v : PyVal) (t : PStr) : Shows repr e v t ↔ v = elemValue e ∧ t = elemU repr e :=
  ⟨fun h => shows_det repr e h (shows_self repr e), fun h => by rw [h.1, h.2]; exact shows_self repr e⟩

section
variable [Runtime]

theorem scalarSet_indep (t : ScalarType) (st st' : ScalarState) (d : PyVal) :
    (∀ b, (scalarSet t st d).2 = .ok b → scalarSet t st' d = scalarSet t st d) ∧ (scalarSet t st' d).2 = (scalarSet t st d).2 := by
  unfold scalarSet
  cases t.adapt d with
  | error er => cases er <;> simp
  | ok v => cases v <;> simp <;> split <;> simp_all

/-! ### set_default -/

omit [Runtime] in
theorem repeatMember_ok {mk : Except PyErr Elem} {n : Nat} {ks : List Elem} (h : repeatMember mk n = .ok ks) :
    ks.length = n ∧ ∀ k ∈ ks, mk = .ok k := by
  induction n generalizing ks with
  | zero => simp only [repeatMember, Except.ok.injEq] at h; subst h; simp
  | succ n ih =>
    simp only [repeatMember] at h
    cases hm : mk with
    | error er => simp [hm] at h
    | ok e =>
      simp only [hm] at h
      cases hr : repeatMember (.ok e) n with
      | error er => simp [hr] at h
      | ok es =>
        simp only [hr, Except.ok.injEq] at h
        subst h
        rw [hm] at ih
        have := ih hr
        simp only [List.length_cons, this.1, true_and, List.mem_cons]
        intro k hk
        rcases hk with rfl | hk
        · rfl
        · exact this.2 k hk

omit [Runtime] in
theorem freshFields_sparse (fs : List Schema) : freshFields .sparse fs = fs.map fun _ => .absent := by
  induction fs with
  | nil => rfl
  | cons f fs ih => simp [freshFields, autoField, ih]

mutual
theorem setDefault_holds : ∀ (s : Schema) (e e' : Elem), setDefault s e = .ok e' → HoldsDefault s e e'
  | .scalar h t, e, e', hs => by
    rw [setDefault] at hs
    rw [HoldsDefault]
    cases hd : h.dflt with
    | none => simp only [hd, Except.ok.injEq] at hs; exact hs.symm
    | some d =>
      simp only [hd] at hs ⊢
      cases hr : scalarSet t e.state d with
      | mk st r =>
        cases r with
        | error er => simp [hr] at hs
        | ok b =>
          simp only [hr, Except.ok.injEq] at hs
          have := (scalarSet_indep t e.state .fresh d).1 b (by simp [hr])
          exact ⟨st, b, this.trans hr, hs.symm⟩
  | .dict h mode policy fs, e, e', hs => by
    have key : (h.dflt = .none ∨ h.dflt = some .none) → HoldsDefault (.dict h mode policy fs) e e' := by
      intro hd
      rw [HoldsDefault, if_pos hd]
      cases mode with
      | full =>
        cases hk : defaultKids fs e.kids with
        | error er =>
          rw [setDefault.eq_def] at hs
          rcases hd with hd | hd <;> simp [hd, hk] at hs
        | ok ks =>
          have : e' = .dict h.name ks := by
            rw [setDefault.eq_def] at hs
            rcases hd with hd | hd <;> simp only [hd, hk, Except.ok.injEq] at hs <;> exact hs.symm
          exact ⟨ks, this, defaultKids_hold fs e.kids ks hk⟩
      | sparse =>
        have : e' = .dict h.name (freshFields .sparse fs) := by
          rw [setDefault.eq_def] at hs
          rcases hd with hd | hd <;> simp only [hd, Except.ok.injEq] at hs <;> exact hs.symm
        exact ⟨_, this, freshFields_sparse fs⟩
      | sparseRequired =>
        cases hk : defaultRequiredKids fs with
        | error er =>
          rw [setDefault.eq_def] at hs
          rcases hd with hd | hd <;> simp [hd, hk] at hs
        | ok ks =>
          have : e' = .dict h.name ks := by
            rw [setDefault.eq_def] at hs
            rcases hd with hd | hd <;> simp only [hd, hk, Except.ok.injEq] at hs <;> exact hs.symm
          exact ⟨ks, this, defaultRequired_hold fs ks hk⟩
    by_cases hd : h.dflt = .none ∨ h.dflt = some .none
    · exact key hd
    · rw [HoldsDefault, if_neg hd]
      cases hdd : h.dflt with
      | none => exact absurd (.inl hdd) hd
      | some d =>
        have hne : d ≠ .none := by intro hh; subst hh; exact hd (.inr hdd)
        rw [setDefault.eq_def] at hs
        simp only [hdd] at hs
        have hs' : dropResult (setVal (.dict h mode policy fs) d) = .ok e' := by
          cases d <;> first | exact absurd rfl hne | exact hs
        unfold dropResult at hs'
        cases hr : setVal (.dict h mode policy fs) d with
        | error er => simp [hr, Except.map] at hs'
        | ok r =>
          obtain ⟨x, b⟩ := r
          simp only [hr, Except.map, Except.ok.injEq] at hs'
          subst hs'
          exact ⟨d, b, rfl, hr⟩
  | .list h prune max m, e, e', hs => by
    rw [setDefault.eq_def] at hs
    rw [HoldsDefault.eq_def]
    simp only at hs ⊢
    have hrep : ∀ n : Nat, (match repeatMember (setDefault m (fresh m)) n with
        | .error er => .error er
        | .ok ks => .ok (.list h.name ks)) = Except.ok (ε := PyErr) e' →
        ∃ ks', e' = .list h.name ks' ∧ ks'.length = n ∧ ∀ k ∈ ks', HoldsDefault m (fresh m) k := by
      intro n hn
      cases hr : repeatMember (setDefault m (fresh m)) n with
      | error er => simp [hr] at hn
      | ok ks =>
        simp only [hr, Except.ok.injEq] at hn
        obtain ⟨h1, h2⟩ := repeatMember_ok hr
        exact ⟨ks, hn.symm, h1, fun k hk => setDefault_holds m (fresh m) k (h2 k hk)⟩
    have hset : ∀ d, dropResult (setVal (.list h prune max m) d) = .ok e' → ∃ b, setVal (.list h prune max m) d = .ok (e', b) := by
      intro d hd
      unfold dropResult at hd
      cases hr : setVal (.list h prune max m) d with
      | error er => simp [hr, Except.map] at hd
      | ok r =>
        obtain ⟨x, b⟩ := r
        simp only [hr, Except.map, Except.ok.injEq] at hd
        subst hd
        exact ⟨b, rfl⟩
    cases hdd : h.dflt with
    | none => simp only [hdd, Except.ok.injEq] at hs; exact hs.symm
    | some d =>
      simp only [hdd] at hs ⊢
      cases d with
      | none => simp only [Except.ok.injEq] at hs; exact hs.symm
      | int n => exact hrep n.toNat hs
      | bool b =>
        have := hrep (if b then 1 else 0) hs
        cases b <;> exact this
      | str s => exact hset _ hs
      | date => exact hset _ hs
      | time => exact hset _ hs
      | datetime => exact hset _ hs
      | list => exact hset _ hs
      | dict => exact hset _ hs
      | obj => exact hset _ hs
  | .array h prune m, e, e', hs => by
    rw [setDefault.eq_def] at hs
    rw [HoldsDefault.eq_def]
    simp only
    cases hdd : h.dflt with
    | none => simp only [hdd, Except.ok.injEq] at hs; simp [hs]
    | some d =>
      simp only [hdd] at hs
      by_cases hne : d = .none
      · subst hne
        simp only [Except.ok.injEq] at hs
        simp [hs]
      · rw [if_neg (by simp [hne])]
        have hs' : (match pyIter d with
          | .error er => .error er
          | .ok vs => match memberSetLoop (setVal m) vs with
            | .error er => .error er
            | .ok (es, _) => .ok (.array h.name es)) = Except.ok (ε := PyErr) e' := by
          cases d <;> first | exact absurd rfl hne | exact hs
        cases hi : pyIter d with
        | error er => simp [hi] at hs'
        | ok vs =>
          simp only [hi] at hs'
          cases hm : memberSetLoop (setVal m) vs with
          | error er => simp [hm] at hs'
          | ok r =>
            obtain ⟨es, b⟩ := r
            simp only [hm, Except.ok.injEq] at hs'
            refine ⟨d, b, rfl, ?_⟩
            rw [setVal, seqSetVal, hi]
            simp only [hm, hs']
theorem defaultKids_hold : ∀ (fs : List Schema) (ks ks' : List Elem), defaultKids fs ks = .ok ks' → HoldDefaults fs ks ks'
  | [], ks, ks', hs => by
    rw [defaultKids] at hs
    rw [HoldDefaults]
    simp only [Except.ok.injEq] at hs
    exact hs.symm
  | f :: fs, [], ks', hs => by
    rw [defaultKids] at hs
    rw [HoldDefaults]
    simp only [Except.ok.injEq] at hs
    exact hs.symm
  | f :: fs, k :: ks, ks', hs => by
    rw [defaultKids] at hs
    cases h1 : setDefault f k with
    | error er => simp [h1] at hs
    | ok k' =>
      simp only [h1] at hs
      cases h2 : defaultKids fs ks with
      | error er => simp [h2] at hs
      | ok ks2 =>
        simp only [h2, Except.ok.injEq] at hs
        subst hs
        rw [HoldDefaults]
        exact ⟨setDefault_holds f k k' h1, defaultKids_hold fs ks ks2 h2⟩
theorem defaultRequired_hold : ∀ (fs : List Schema) (ks' : List Elem), defaultRequiredKids fs = .ok ks' → HoldRequired fs ks'
  | [], ks', hs => by
    rw [defaultRequiredKids] at hs
    simp only [Except.ok.injEq] at hs
    subst hs
    rw [HoldRequired]; trivial
  | f :: fs, ks', hs => by
    rw [defaultRequiredKids] at hs
    cases hopt : f.hdr.optional with
    | true =>
      simp only [hopt, if_true] at hs
      cases h2 : defaultRequiredKids fs with
      | error er => simp [h2] at hs
      | ok ks2 =>
        simp only [h2, Except.ok.injEq] at hs
        subst hs
        rw [HoldRequired]
        exact ⟨by simp [hopt], defaultRequired_hold fs ks2 h2⟩
    | false =>
      simp only [hopt, Bool.false_eq_true, if_false] at hs
      cases h1 : setDefault f (fresh f) with
      | error er => simp [h1] at hs
      | ok k' =>
        simp only [h1] at hs
        cases h2 : defaultRequiredKids fs with
        | error er => simp [h2] at hs
        | ok ks2 =>
          simp only [h2, Except.ok.injEq] at hs
          subst hs
          rw [HoldRequired]
          exact ⟨by simp only [hopt, Bool.false_eq_true, if_false]; exact setDefault_holds f (fresh f) k' h1, defaultRequired_hold fs ks2 h2⟩
end

mutual
theorem setDefault_indep : ∀ (s : Schema) (e₁ e₂ : Elem), DefaultsGiven s → Conforms s e₁ → Conforms s e₂ → setDefault s e₁ = setDefault s e₂
  | .scalar h t, e₁, e₂, hd, _, _ => by
    rw [setDefault, setDefault]
    cases hdd : h.dflt with
    | none => simp [DefaultsGiven, hdd] at hd
    | some d =>
      simp only
      have h1 := scalarSet_indep t e₁.state e₂.state d
      cases hr : scalarSet t e₁.state d with
      | mk st r =>
        cases r with
        | ok b => rw [h1.1 b (by simp [hr]), hr]
        | error er =>
          have h2 := h1.2
          rw [hr] at h2
          cases hr2 : scalarSet t e₂.state d with
          | mk st2 r2 =>
            rw [hr2] at h2
            simp only at h2
            subst h2
            rfl
  | .dict h mode policy fs, e₁, e₂, hd, hc1, hc2 => by
    rw [setDefault.eq_def, setDefault.eq_def]
    simp only
    cases e₁ <;> simp only [Conforms] at hc1
    cases e₂ <;> simp only [Conforms] at hc2
    rename_i n1 ks1 n2 ks2
    have hk : (h.dflt = .none ∨ h.dflt = some .none) → mode = .full → defaultKids fs ks1 = defaultKids fs ks2 := fun h1 h2 => by
      rw [DefaultsGiven] at hd
      exact defaultKids_indep mode h2 fs ks1 ks2 (hd h1 h2) hc1.2 hc2.2
    cases hdd : h.dflt with
    | none =>
      cases mode with
      | full => simp only [Elem.kids, hk (.inl hdd) rfl]
      | sparse => rfl
      | sparseRequired => rfl
    | some d =>
      cases d with
      | none =>
        cases mode with
        | full => simp only [Elem.kids, hk (.inr hdd) rfl]
        | sparse => rfl
        | sparseRequired => rfl
      | _ => rfl
  | .list h prune max m, e₁, e₂, hd, _, _ => by
    rw [setDefault.eq_def, setDefault.eq_def]
    simp only [DefaultsGiven] at hd
    simp only
    cases hdd : h.dflt with
    | none => exact absurd hdd hd.1
    | some d => cases d with
      | none => exact absurd hdd hd.2
      | _ => rfl
  | .array h prune m, e₁, e₂, hd, _, _ => by
    rw [setDefault.eq_def, setDefault.eq_def]
    simp only [DefaultsGiven] at hd
    simp only
    cases hdd : h.dflt with
    | none => exact absurd hdd hd.1
    | some d => cases d with
      | none => exact absurd hdd hd.2
      | _ => rfl
theorem defaultKids_indep (mode : DictMode) (hm : mode = .full) : ∀ (fs : List Schema) (ks₁ ks₂ : List Elem), DefaultsGivenAll fs → ConformsAll mode fs ks₁ → ConformsAll mode fs ks₂ →
    defaultKids fs ks₁ = defaultKids fs ks₂
  | [], _, _, _, _, _ => by rw [defaultKids, defaultKids]
  | f :: fs, [], _, _, h, _ => by simp [ConformsAll] at h
  | f :: fs, _ :: _, [], _, _, h => by simp [ConformsAll] at h
  | f :: fs, k1 :: ks1, k2 :: ks2, hd, h1, h2 => by
    rw [DefaultsGivenAll] at hd
    rw [ConformsAll] at h1 h2
    have hc : ∀ k, ((k = .absent ∧ autoField mode f = false) ∨ Conforms f k) → Conforms f k := by
      rintro k (⟨_, hb⟩ | hc)
      · subst hm; simp [autoField] at hb
      · exact hc
    rw [defaultKids, defaultKids, setDefault_indep f k1 k2 hd.1 (hc k1 h1.1) (hc k2 h2.1), defaultKids_indep mode hm fs ks1 ks2 hd.2 h1.2 h2.2]
end

/-! ### set(value) -/

theorem fieldSetters_eq (fs : List Schema) : fieldSetters fs = fs.map setVal := by
  induction fs with
  | nil => rfl
  | cons f fs ih => simp [fieldSetters, ih]

omit [Runtime] in
theorem fieldPos_at (fs₁ : List Schema) (f : Schema) (fs₂ : List Schema) (hn : ((fs₁ ++ f :: fs₂).map Schema.name).Nodup) (k : PStr) (hk : f.name = some k) :
    fieldPos ((fs₁ ++ f :: fs₂).map Schema.name) (.str k) = .ok (some fs₁.length) := by
  simp only [fieldPos]
  congr 1
  rw [List.findIdx?_eq_some_iff_getElem]
  refine ⟨by simp, by simp [hk], ?_⟩
  intro j hj
  simp only [List.getElem_map, beq_iff_eq]
  intro hh
  have h1 : ((fs₁ ++ f :: fs₂).map Schema.name)[j]'(by simp; omega) = ((fs₁ ++ f :: fs₂).map Schema.name)[fs₁.length]'(by simp) := by
    simp only [List.getElem_map]
    rw [hh, List.getElem_append_right (Nat.le_refl _)]
    simp [hk]
  have := (List.getElem_inj hn).mp h1
  omega

omit [Runtime] in
theorem kidItems_present {k : Elem} (h : k.present = true) (ks : List Elem) : kidItems (k :: ks) = (k.name.getD [], elemValue k) :: kidItems ks := by
  rw [kidItems, if_pos h]

omit [Runtime] in
theorem kidItems_absent (ks : List Elem) : kidItems (.absent :: ks) = kidItems ks := by
  simp [kidItems, Elem.present]

omit [Runtime] in
theorem conforms_name {s : Schema} {e : Elem} (h : Conforms s e) : e.name = s.name ∧ e.present = true := by
  cases s <;> cases e <;> simp only [Conforms] at h <;> simp [Elem.name, Schema.name, Schema.hdr, Elem.present, h]

omit [Runtime] in
theorem sameBy_present {R : ScalarState → ScalarState → Prop} {e e' : Elem} (h : SameBy R e e') : e.present = e'.present ∧ e.name = e'.name ∧ e.flattenable = e'.flattenable := by
  cases e <;> cases e' <;> simp only [SameBy] at h <;> simp_all [Elem.present, Elem.name, Elem.flattenable]

theorem memberLoop_value (m : Schema) : ∀ (ks : List Elem), (∀ k ∈ ks, ∃ k', setVal m (elemValue k) = .ok (k', true) ∧ SameBy SameData k k') →
    ∃ ks', memberSetLoop (setVal m) (kidValues ks) = .ok (ks', true) ∧ SameByAll SameData ks ks'
  | [], _ => ⟨[], by simp [kidValues, memberSetLoop], by simp [SameByAll]⟩
  | k :: ks, h => by
    obtain ⟨k', h1, h2⟩ := h k (by simp)
    obtain ⟨ks', h3, h4⟩ := memberLoop_value m ks fun x hx => h x (by simp [hx])
    exact ⟨k' :: ks', by simp [kidValues, memberSetLoop, h1, h3], by rw [SameByAll]; exact ⟨h2, h4⟩⟩

mutual
theorem setVal_value : ∀ (s : Schema) (p : Bool) (e : Elem), NamedFields s → Conforms s e → Complete s e → EachScalar (fun _ t st => ReAdapts t st) p s e →
    ∃ e', setVal s (elemValue e) = .ok (e', true) ∧ SameBy SameData e e'
  | .scalar h t, p, e, _, hc, _, hs => by
    cases e <;> simp only [Conforms] at hc
    rename_i n st
    obtain ⟨st', h1, h2⟩ := hs
    refine ⟨.scalar h.name st', ?_, ?_⟩
    · simp [setVal, elemValue, h1]
    · rw [SameBy]; exact ⟨hc, h2⟩
  | .dict h mode policy fs, p, e, hn, hc, hp, hs => by
    cases e <;> simp only [Conforms] at hc
    rename_i n ks
    rw [NamedFields] at hn
    rw [Complete] at hp
    rw [EachScalar] at hs
    obtain ⟨ks', seen, h1, h2, h3⟩ := dictLoop_value mode policy fs p [] [] ks [] hn.1 (by simpa using hn.2.1) hn.2.2 hc.2 hp.2 hs rfl
    refine ⟨.dict h.name ks', ?_, ?_⟩
    · rw [setVal, dictSet, elemValue, valuePairs]
      simp only [List.nil_append] at h1
      simp only [fieldSetters_eq, h1]
      rw [if_neg]
      rintro ⟨hst, hall⟩
      apply hall
      rw [List.all_eq_true]
      intro i hi
      simp only [List.length_map, List.mem_range] at hi
      have := h3.1 (hp.1 hst) i
      simp only [List.length_nil, Nat.zero_add] at this
      simpa using this (by omega) hi
    · rw [SameBy]; exact ⟨hc.1, h2⟩
  | .list h prune max m, p, e, hn, hc, hp, hs => by
    cases e <;> simp only [Conforms] at hc
    rename_i n ks
    rw [NamedFields] at hn
    rw [Complete] at hp
    rw [EachScalar] at hs
    obtain ⟨ks', h1, h2⟩ := memberLoop_value m ks fun k hk => setVal_value m (p || prune) k hn (hc.2 k hk) (hp k hk) (hs k hk)
    refine ⟨.list h.name ks', ?_, ?_⟩
    · rw [setVal, elemValue, seqSetVal, pyIter]; simp only [h1]
    · rw [SameBy]; exact ⟨hc.1, h2⟩
  | .array h prune m, p, e, hn, hc, hp, hs => by
    cases e <;> simp only [Conforms] at hc
    rename_i n ks
    rw [NamedFields] at hn
    rw [Complete] at hp
    rw [EachScalar] at hs
    obtain ⟨ks', h1, h2⟩ := memberLoop_value m ks fun k hk => setVal_value m false k hn (hc.2 k hk) (hp k hk) (hs k hk)
    refine ⟨.array h.name ks', ?_, ?_⟩
    · rw [setVal, elemValue, seqSetVal, pyIter]; simp only [h1]
    · rw [SameBy]; exact ⟨hc.1, h2⟩
/-- the rest of the loop, at fields `fs₂` after `fs₁` -/
theorem dictLoop_value (mode : DictMode) (policy : Policy) : ∀ (fs₂ : List Schema) (p : Bool) (fs₁ : List Schema) (done ks : List Elem) (seen : List Nat),
    (∀ f ∈ fs₂, f.name ≠ .none) → ((fs₁ ++ fs₂).map Schema.name).Nodup → NamedFieldsAll fs₂ → ConformsAll mode fs₂ ks → CompleteAll fs₂ ks →
    EachScalarAll (fun _ t st => ReAdapts t st) p fs₂ ks → done.length = fs₁.length →
    ∃ ks' seen', dictSetLoop policy ((fs₁ ++ fs₂).map Schema.name) ((fs₁ ++ fs₂).map setVal) (done ++ freshFields mode fs₂) seen true
        ((kidItems ks).map fun q => .ok (.str q.1, q.2)) = .ok (done ++ ks', seen', true) ∧ SameByAll SameData ks ks' ∧
      ((∀ k ∈ ks, k.present = true) → ∀ i, fs₁.length ≤ i → i < (fs₁ ++ fs₂).length → i ∈ seen') ∧ ∀ i ∈ seen, i ∈ seen'
  | [], p, fs₁, done, ks, seen, _, _, _, hc, _, _, _ => by
    cases ks with
    | cons k ks => simp [ConformsAll] at hc
    | nil =>
      refine ⟨[], seen, by simp [kidItems, dictSetLoop, freshFields], by simp [SameByAll], ?_, by simp⟩
      intro _ i h1 h2
      simp at h2; omega
  | f :: fs, p, fs₁, done, ks, seen, hnn, hnd, hnf, hc, hcomp, hs, hlen => by
    cases ks with
    | nil => simp [ConformsAll] at hc
    | cons k ks =>
      rw [ConformsAll] at hc
      rw [NamedFieldsAll] at hnf
      rw [CompleteAll] at hcomp
      rw [EachScalarAll] at hs
      have happ : fs₁ ++ f :: fs = (fs₁ ++ [f]) ++ fs := by simp
      rcases hc.1 with ⟨rfl, hauto⟩ | hck
      · obtain ⟨ks', seen', h1, h2, h3, h4⟩ := dictLoop_value mode policy fs p (fs₁ ++ [f]) (done ++ [.absent]) ks seen (fun g hg => hnn g (by simp [hg]))
          (by rw [← happ]; exact hnd) hnf.2 hc.2 hcomp.2 hs.2 (by simp [hlen])
        refine ⟨.absent :: ks', seen', ?_, by rw [SameByAll]; exact ⟨by simp [SameBy], h2⟩, ?_, h4⟩
        · rw [kidItems_absent, freshFields, hauto, happ]
          simpa using h1
        · intro hall
          have := hall .absent (by simp)
          simp [Elem.present] at this
      · obtain ⟨k', hk1, hk2⟩ := setVal_value f p k hnf.1 hck hcomp.1 hs.1
        obtain ⟨hname, hpres⟩ := conforms_name hck
        obtain ⟨kn, hkn⟩ : ∃ kn, f.name = some kn := by
          cases hfn : f.name with
          | none => exact absurd hfn (hnn f (by simp))
          | some kn => exact ⟨kn, rfl⟩
        obtain ⟨ks', seen', h1, h2, h3, h4⟩ := dictLoop_value mode policy fs p (fs₁ ++ [f]) (done ++ [k']) ks (fs₁.length :: seen) (fun g hg => hnn g (by simp [hg]))
          (by rw [← happ]; exact hnd) hnf.2 hc.2 hcomp.2 hs.2 (by simp [hlen])
        refine ⟨k' :: ks', seen', ?_, by rw [SameByAll]; exact ⟨hk2, h2⟩, ?_, fun i hi => h4 i (by simp [hi])⟩
        · rw [kidItems_present hpres, hname, hkn, List.map_cons, dictSetLoop, Option.getD_some, fieldPos_at fs₁ f fs hnd kn hkn]
          have hget : ((fs₁ ++ f :: fs).map setVal)[fs₁.length]? = some (setVal f) := by
            rw [List.map_append, List.getElem?_append_right (by simp)]
            simp
          simp only [hget, hk1, Bool.true_and]
          have hset : (done ++ freshFields mode (f :: fs)).set fs₁.length k' = (done ++ [k']) ++ freshFields mode fs := by
            rw [freshFields, ← hlen, List.set_append]
            simp
          rw [hset, happ]
          simpa using h1
        · intro hall i hi1 hi2
          by_cases he : i = fs₁.length
          · exact h4 i (by simp [he])
          · exact h3 (fun x hx => hall x (by simp [hx])) i (by simp; omega) (by simpa using hi2)
end

end

mutual
/-- trees with the same data have the same value and text -/
theorem sameData_value (repr : PStr → PStr) : ∀ (e e' : Elem), SameBy SameData e e' → elemValue e = elemValue e' ∧ elemU repr e = elemU repr e'
  | .scalar n st, e', h => by
    cases e' <;> simp only [SameBy] at h
    simp only [elemValue, elemU]
    exact ⟨h.2.2, h.2.1⟩
  | .dict n ks, e', h => by
    cases e' <;> simp only [SameBy] at h
    have := sameData_kids repr ks _ h.2
    simp only [elemValue, elemU, this.1, this.2.1, and_self]
  | .list n ks, e', h => by
    cases e' <;> simp only [SameBy] at h
    have := sameData_kids repr ks _ h.2
    simp only [elemValue, elemU, this.2.2.1, this.2.2.2, and_self]
  | .array n ks, e', h => by
    cases e' <;> simp only [SameBy] at h
    have := sameData_kids repr ks _ h.2
    simp only [elemValue, elemU, this.2.2.1, this.2.2.2, and_self]
  | .absent, e', h => by
    cases e' <;> simp only [SameBy] at h
    exact ⟨rfl, rfl⟩
theorem sameData_kids (repr : PStr → PStr) : ∀ (ks ks' : List Elem), SameByAll SameData ks ks' →
    kidItems ks = kidItems ks' ∧ kidPairTexts repr ks = kidPairTexts repr ks' ∧ kidValues ks = kidValues ks' ∧ kidTexts repr ks = kidTexts repr ks'
  | [], ks', h => by
    cases ks' with
    | nil => simp
    | cons => simp [SameByAll] at h
  | k :: ks, ks', h => by
    cases ks' with
    | nil => simp [SameByAll] at h
    | cons k' ks' =>
      rw [SameByAll] at h
      have h1 := sameData_value repr k k' h.1
      have h2 := sameData_kids repr ks ks' h.2
      obtain ⟨g1, g2, g3⟩ := sameBy_present h.1
      simp only [kidItems, kidPairTexts, kidValues, kidTexts, h1.1, h1.2, h2.1, h2.2.1, h2.2.2.1, h2.2.2.2, g1, g2, g3, and_self]
end

/-! ### well-formed values -/

theorem kidItems_names (mode : DictMode) : ∀ (fs : List Schema) (ks : List Elem), (∀ f ∈ fs, f.name ≠ .none) → (fs.map Schema.name).Nodup → ConformsAll mode fs ks →
    ((kidItems ks).map Prod.fst).Nodup ∧ ∀ n ∈ (kidItems ks).map Prod.fst, some n ∈ fs.map Schema.name
  | [], ks, _, _, hc => by
    cases ks with
    | nil => simp [kidItems]
    | cons => simp [ConformsAll] at hc
  | f :: fs, ks, hnn, hnd, hc => by
    cases ks with
    | nil => simp [ConformsAll] at hc
    | cons k ks =>
      rw [ConformsAll] at hc
      rw [List.map_cons, List.nodup_cons] at hnd
      obtain ⟨h1, h2⟩ := kidItems_names mode fs ks (fun g hg => hnn g (by simp [hg])) hnd.2 hc.2
      rcases hc.1 with ⟨rfl, _⟩ | hck
      · rw [kidItems_absent]
        exact ⟨h1, fun n hn => by simp only [List.map_cons, List.mem_cons]; exact .inr (h2 n hn)⟩
      · obtain ⟨hname, hpres⟩ := conforms_name hck
        obtain ⟨kn, hkn⟩ : ∃ kn, f.name = some kn := by
          cases hfn : f.name with
          | none => exact absurd hfn (hnn f (by simp))
          | some kn => exact ⟨kn, rfl⟩
        rw [kidItems_present hpres, hname, hkn]
        simp only [Option.getD_some, List.map_cons, List.nodup_cons, List.mem_cons]
        refine ⟨⟨fun hm => hnd.1 (hkn ▸ h2 kn hm), h1⟩, ?_⟩
        rintro n (rfl | hn)
        · exact .inl hkn.symm
        · exact .inr (h2 n hn)

mutual
theorem elemValue_wf : ∀ (s : Schema) (p : Bool) (e : Elem), NamedFields s → Conforms s e → EachScalar (fun _ _ st => WfVal st.value) p s e → WfVal (elemValue e)
  | .scalar h t, p, e, _, hc, hs => by
    cases e <;> simp only [Conforms] at hc
    rw [EachScalar] at hs
    rw [elemValue]; exact hs
  | .dict h mode policy fs, p, e, hn, hc, hs => by
    cases e <;> simp only [Conforms] at hc
    rename_i n ks
    rw [NamedFields] at hn
    rw [EachScalar] at hs
    rw [elemValue, WfVal]
    exact ⟨(kidItems_names mode fs ks hn.1 hn.2.1 hc.2).1, kidItems_wf mode fs p ks hn.2.2 hc.2 hs⟩
  | .list h prune max m, p, e, hn, hc, hs => by
    cases e <;> simp only [Conforms] at hc
    rename_i n ks
    rw [NamedFields] at hn
    rw [EachScalar] at hs
    rw [elemValue, WfVal]
    have : ∀ ks : List Elem, (∀ k ∈ ks, WfVal (elemValue k)) → WfList (kidValues ks) := by
      intro ks
      induction ks with
      | nil => intro _; simp [kidValues, WfList]
      | cons k ks ih => intro h; rw [kidValues, WfList]; exact ⟨h k (by simp), ih fun x hx => h x (by simp [hx])⟩
    exact this ks fun k hk => elemValue_wf m (p || prune) k hn (hc.2 k hk) (hs k hk)
  | .array h prune m, p, e, hn, hc, hs => by
    cases e <;> simp only [Conforms] at hc
    rename_i n ks
    rw [NamedFields] at hn
    rw [EachScalar] at hs
    rw [elemValue, WfVal]
    have : ∀ ks : List Elem, (∀ k ∈ ks, WfVal (elemValue k)) → WfList (kidValues ks) := by
      intro ks
      induction ks with
      | nil => intro _; simp [kidValues, WfList]
      | cons k ks ih => intro h; rw [kidValues, WfList]; exact ⟨h k (by simp), ih fun x hx => h x (by simp [hx])⟩
    exact this ks fun k hk => elemValue_wf m false k hn (hc.2 k hk) (hs k hk)
theorem kidItems_wf (mode : DictMode) : ∀ (fs : List Schema) (p : Bool) (ks : List Elem), NamedFieldsAll fs → ConformsAll mode fs ks →
    EachScalarAll (fun _ _ st => WfVal st.value) p fs ks → WfDict (kidItems ks)
  | [], _, ks, _, hc, _ => by
    cases ks with
    | nil => simp [kidItems, WfDict]
    | cons => simp [ConformsAll] at hc
  | f :: fs, p, ks, hn, hc, hs => by
    cases ks with
    | nil => simp [ConformsAll] at hc
    | cons k ks =>
      rw [ConformsAll] at hc
      rw [NamedFieldsAll] at hn
      rw [EachScalarAll] at hs
      have h2 := kidItems_wf mode fs p ks hn.2 hc.2 hs.2
      rcases hc.1 with ⟨rfl, _⟩ | hck
      · rw [kidItems_absent]; exact h2
      · rw [kidItems_present (conforms_name hck).2, WfDict]
        exact ⟨elemValue_wf f p k hn.1 hck hs.1, h2⟩
end

end Flatland
