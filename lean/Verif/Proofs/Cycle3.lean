import Verif.Proofs.Cycle2
/-
Helper lemmas for C83: sending a form back again and again.
-/
namespace Flatland
open Spec

variable [Runtime]

/-- a field after the form has been sent back -/
theorem field_back {sep : PStr} {p : Bool} {mode : DictMode} {f : Schema} {k : Elem} (hw : WellNamed sep f)
    (hc : (k = .absent ∧ autoField mode f = false) ∨ Conforms f k) :
    (if survives p k then broughtBack p f k else if autoField mode f then fresh f else .absent) = .absent ∧ survives p k = false ∧
        autoField mode f = false ∨
      (if survives p k then broughtBack p f k else if autoField mode f then fresh f else .absent) = broughtBack p f k ∧ Conforms f k ∧
        (survives p k = false → autoField mode f = true) := by
  rcases hc with ⟨rfl, ha⟩ | hc
  · left; simp [survives_absent, ha]
  · cases hs : survives p k with
    | true => right; simp [hc]
    | false =>
      cases ha : autoField mode f with
      | true => right; simp [broughtBack_lost p f k hw hc hs, hc]
      | false => left; simp

mutual
theorem broughtBack_conforms {sep : PStr} (p : Bool) : ∀ (s : Schema) (e : Elem), WellNamed sep s → Conforms s e → Conforms s (broughtBack p s e)
  | .scalar h t, .scalar n st, _, hc => by simpa only [broughtBack, Conforms] using hc
  | .dict h mode po fs, .dict n ks, hw, hc => by
    simp only [Conforms, WellNamed, broughtBack] at hc hw ⊢
    exact ⟨hc.1, broughtBackAll_conforms p mode fs ks hw.2.2.2 hc.2⟩
  | .list h true max m, .list n ks, hw, hc => by
    simp only [Conforms, WellNamed, broughtBack] at hc hw ⊢
    refine ⟨hc.1, fun k hk => ?_⟩
    obtain ⟨k', hk', rfl⟩ := List.mem_map.1 hk
    exact broughtBack_conforms true m k' hw.2 (hc.2 k' (List.mem_filter.1 (List.mem_of_mem_take hk')).1)
  | .list h false max m, .list n ks, hw, hc => by
    simp only [Conforms, WellNamed, broughtBack] at hc hw ⊢
    refine ⟨hc.1, fun k hk => ?_⟩
    obtain ⟨k', hk', rfl⟩ := List.mem_map.1 hk
    exact broughtBack_conforms p m k' hw.2 (hc.2 k' ((upToLast_prefix _ _).subset (List.mem_of_mem_take hk')))
  | .array h prune m, .array n ks, hw, hc => by
    simp only [Conforms, WellNamed, broughtBack] at hc hw ⊢
    refine ⟨hc.1, fun k hk => ?_⟩
    obtain ⟨k', hk', rfl⟩ := List.mem_map.1 hk
    exact broughtBack_conforms false m k' hw.2.2 (hc.2 k' (List.mem_filter.1 hk').1)
  | .scalar .., .dict .., _, hc | .scalar .., .list .., _, hc | .scalar .., .array .., _, hc | .scalar .., .absent, _, hc
  | .dict .., .scalar .., _, hc | .dict .., .list .., _, hc | .dict .., .array .., _, hc | .dict .., .absent, _, hc
  | .list .., .dict .., _, hc | .list .., .scalar .., _, hc | .list .., .array .., _, hc | .list .., .absent, _, hc
  | .array .., .dict .., _, hc | .array .., .list .., _, hc | .array .., .scalar .., _, hc | .array .., .absent, _, hc => by
    simp [Conforms] at hc
theorem broughtBackAll_conforms {sep : PStr} (p : Bool) (mode : DictMode) : ∀ (fs : List Schema) (ks : List Elem), WellNamedAll sep fs →
    ConformsAll mode fs ks → ConformsAll mode fs (broughtBackAll p mode fs ks)
  | [], [], _, _ => by simp [broughtBackAll, ConformsAll]
  | f :: fs, k :: ks, hw, hc => by
    simp only [ConformsAll, WellNamedAll, broughtBackAll] at hc hw ⊢
    refine ⟨?_, broughtBackAll_conforms p mode fs ks hw.2 hc.2⟩
    rcases field_back (p := p) hw.1 hc.1 with ⟨h, -, ha⟩ | ⟨h, hck, -⟩
    · exact .inl ⟨h, ha⟩
    · rw [h]; exact .inr (broughtBack_conforms p f k hw.1 hck)
  | [], _ :: _, _, hc | _ :: _, [], _, hc => by simp [ConformsAll] at hc
end

omit [Runtime] in
theorem eachScalar_absent {P : Bool → ScalarType → ScalarState → Prop} {p : Bool} {s : Schema} : EachScalar P p s .absent := by
  cases s <;> simp [EachScalar]

/-- whatever every single scalar has after being set from its text, the scalars of the form that comes back have -/
theorem each_back {P Q : Bool → ScalarType → ScalarState → Prop} (hstep : ∀ p t st, P p t st →
    Q p t (if p && st.u == [] then .fresh else (scalarSet t .fresh (.str st.u)).1)) {sep : PStr} (s : Schema) :
    ∀ (p : Bool) (e : Elem), WellNamed sep s → Conforms s e → EachScalar P p s e → EachScalar Q p s (broughtBack p s e) := by
  induction s using Schema.rec (motive_2 := fun fs => ∀ (p : Bool) (mode : DictMode) (ks : List Elem), WellNamedAll sep fs →
    ConformsAll mode fs ks → EachScalarAll P p fs ks → EachScalarAll Q p fs (broughtBackAll p mode fs ks)) with
  | scalar h t =>
    intro p e hw hc he
    cases e <;> simp only [Conforms] at hc
    simp only [EachScalar, broughtBack] at he ⊢
    exact hstep _ _ _ he
  | dict h mode po fs ih =>
    intro p e hw hc he
    cases e <;> simp only [Conforms] at hc
    simp only [EachScalar, broughtBack, WellNamed] at he hw ⊢
    exact ih p mode _ hw.2.2.2 hc.2 he
  | list h prune max m ih =>
    intro p e hw hc he
    cases e <;> simp only [Conforms] at hc
    simp only [EachScalar, WellNamed] at he hw
    cases prune with
    | true =>
      simp only [broughtBack, EachScalar, Bool.or_true] at he ⊢
      intro k hk
      obtain ⟨k', hk', rfl⟩ := List.mem_map.1 hk
      have hm := (List.mem_filter.1 (List.mem_of_mem_take hk')).1
      exact ih true k' hw.2 (hc.2 k' hm) (he k' hm)
    | false =>
      simp only [broughtBack, EachScalar, Bool.or_false] at he ⊢
      intro k hk
      obtain ⟨k', hk', rfl⟩ := List.mem_map.1 hk
      have hm := (upToLast_prefix _ _).subset (List.mem_of_mem_take hk')
      exact ih p k' hw.2 (hc.2 k' hm) (he k' hm)
  | array h prune m ih =>
    intro p e hw hc he
    cases e <;> simp only [Conforms] at hc
    simp only [EachScalar, WellNamed, broughtBack] at he hw ⊢
    intro k hk
    obtain ⟨k', hk', rfl⟩ := List.mem_map.1 hk
    have hm := (List.mem_filter.1 hk').1
    exact ih false k' hw.2.2 (hc.2 k' hm) (he k' hm)
  | nil p mode ks _ hc _ => cases ks <;> simp [ConformsAll, broughtBackAll, EachScalarAll] at *
  | cons f fs ihf ihfs p mode ks hw hc he =>
    cases ks with
    | nil => simp [ConformsAll] at hc
    | cons k ks =>
      simp only [ConformsAll, WellNamedAll, broughtBackAll, EachScalarAll] at hc hw he ⊢
      refine ⟨?_, ihfs p mode ks hw.2 hc.2 he.2⟩
      rcases field_back (p := p) hw.1 hc.1 with ⟨h, -, -⟩ | ⟨h, hck, -⟩
      · rw [h]; exact eachScalar_absent
      · rw [h]; exact ihf p k hw.1 hck he.1

omit [Runtime] in
theorem withinMax_absent {s : Schema} : WithinMax s .absent := by
  cases s <;> simp [WithinMax]

/-- no List that comes back is too long -/
theorem within_back {sep : PStr} (s : Schema) :
    ∀ (p : Bool) (e : Elem), WellNamed sep s → Conforms s e → WithinMax s (broughtBack p s e) := by
  induction s using Schema.rec (motive_2 := fun fs => ∀ (p : Bool) (mode : DictMode) (ks : List Elem), WellNamedAll sep fs →
    ConformsAll mode fs ks → WithinMaxAll fs (broughtBackAll p mode fs ks)) with
  | scalar h t =>
    intro p e hw hc
    cases e <;> simp only [Conforms] at hc
    simp [WithinMax, broughtBack]
  | dict h mode po fs ih =>
    intro p e hw hc
    cases e <;> simp only [Conforms] at hc
    simp only [WithinMax, broughtBack, WellNamed] at hw ⊢
    exact ih p mode _ hw.2.2.2 hc.2
  | list h prune max m ih =>
    intro p e hw hc
    cases e <;> simp only [Conforms] at hc
    simp only [WellNamed] at hw
    cases prune with
    | true =>
      simp only [broughtBack, WithinMax]
      refine ⟨by simp only [List.length_map, List.length_take]; omega, fun k hk => ?_⟩
      obtain ⟨k', hk', rfl⟩ := List.mem_map.1 hk
      have hm := (List.mem_filter.1 (List.mem_of_mem_take hk')).1
      exact ih true k' hw.2 (hc.2 k' hm)
    | false =>
      simp only [broughtBack, WithinMax]
      refine ⟨by simp only [List.length_map, List.length_take]; omega, fun k hk => ?_⟩
      obtain ⟨k', hk', rfl⟩ := List.mem_map.1 hk
      have hm := (upToLast_prefix _ _).subset (List.mem_of_mem_take hk')
      exact ih p k' hw.2 (hc.2 k' hm)
  | array h prune m ih =>
    intro p e hw hc
    cases e <;> simp only [Conforms] at hc
    simp [WithinMax, broughtBack]
  | nil p mode ks _ hc => cases ks <;> simp [ConformsAll, broughtBackAll, WithinMaxAll] at *
  | cons f fs ihf ihfs p mode ks hw hc =>
    cases ks with
    | nil => simp [ConformsAll] at hc
    | cons k ks =>
      simp only [ConformsAll, WellNamedAll, broughtBackAll, WithinMaxAll] at hc hw ⊢
      refine ⟨?_, ihfs p mode ks hw.2 hc.2⟩
      rcases field_back (p := p) hw.1 hc.1 with ⟨h, -, -⟩ | ⟨h, hck, -⟩
      · rw [h]; exact withinMax_absent
      · rw [h]; exact ihf p k hw.1 hck

omit [Runtime] in
theorem any_congr_mem {α} {q r : α → Bool} {l : List α} (h : ∀ x ∈ l, q x = r x) : l.any q = l.any r := by
  induction l with
  | nil => rfl
  | cons a l ih => rw [List.any_cons, List.any_cons, h a (by simp), ih fun x hx => h x (by simp [hx])]

omit [Runtime] in
theorem any_filter_self {α} (q : α → Bool) (l : List α) : (l.filter q).any q = l.any q := by
  rw [Bool.eq_iff_iff, List.any_eq_true, List.any_eq_true]
  simp only [List.mem_filter]
  exact ⟨fun ⟨x, hx, h⟩ => ⟨x, hx.1, h⟩, fun ⟨x, hx, h⟩ => ⟨x, ⟨hx, h⟩, h⟩⟩

omit [Runtime] in
theorem survives_weaken {p : Bool} {e : Elem} (h : survives true e = true) : survives p e = true := by
  cases hs : survives p e with
  | true => rfl
  | false =>
    have := survives_mono (q := true) hs
    rw [Bool.or_true, h] at this
    cases this

/-- the text of a scalar that has been sent back -/
theorem steady_text {p : Bool} {t : ScalarType} {st : ScalarState} (h : Steady p t st) :
    (if p && st.u == [] then ScalarState.fresh else (scalarSet t .fresh (.str st.u)).1).u = st.u := h.2.symm

/-- the same parts get through the second time -/
theorem survives_back {sep : PStr} (s : Schema) : ∀ (p : Bool) (e : Elem), WellNamed sep s → Conforms s e → EachScalar Steady p s e →
    WithinMax s e → (p = true ∨ NoBlanks p s e) → survives p (broughtBack p s e) = survives p e := by
  induction s using Schema.rec (motive_2 := fun fs => ∀ (p : Bool) (mode : DictMode) (ks : List Elem), WellNamedAll sep fs →
    ConformsAll mode fs ks → EachScalarAll Steady p fs ks → WithinMaxAll fs ks → (p = true ∨ NoBlanksAll p fs ks) →
    (broughtBackAll p mode fs ks).any (survives p) = ks.any (survives p)) with
  | scalar h t =>
    intro p e hw hc he hm hb
    cases e <;> simp only [Conforms] at hc
    simp only [EachScalar] at he
    simp only [broughtBack]
    rw [survives_scalar, survives_scalar, steady_text he]
  | dict h mode po fs ih =>
    intro p e hw hc he hm hb
    cases e <;> simp only [Conforms] at hc
    simp only [EachScalar, broughtBack, WellNamed, WithinMax, NoBlanks] at he hw hm hb ⊢
    rw [survives_dict, survives_dict, ih p mode _ hw.2.2.2 hc.2 he hm hb]
  | list h prune max m ih =>
    intro p e hw hc he hm hb
    cases e <;> simp only [Conforms] at hc
    rename_i n ks
    simp only [EachScalar, WellNamed, WithinMax, NoBlanks] at he hw hm hb
    cases prune with
    | true =>
      simp only [Bool.or_true] at he hb
      simp only [broughtBack]
      rw [survives_list, survives_list, List.any_map,
        List.take_of_length_le (Nat.le_trans (List.length_filter_le ..) hm.1)]
      have hk : ∀ k ∈ ks, survives true (broughtBack true m k) = survives true k := fun k hk =>
        ih true k hw.2 (hc.2 k hk) (he k hk) (hm.2 k hk) (.inl rfl)
      cases p with
      | true =>
        rw [← any_filter_self (survives true) ks]
        exact any_congr_mem fun k hk' => hk k (List.mem_filter.1 hk').1
      | false =>
        have hb := hb.resolve_left (by simp)
        rw [List.filter_eq_self.2 fun k hk => (hb k hk).2 trivial]
        refine any_congr_mem fun k hk' => ?_
        have h1 := (hb k hk').2 trivial
        rw [Function.comp, survives_weaken h1, survives_weaken ((hk k hk').trans h1)]
    | false =>
      simp only [Bool.or_false] at he hb
      simp only [broughtBack]
      rw [survives_list, survives_list, List.any_map,
        List.take_of_length_le (Nat.le_trans (upToLast_prefix _ _).length_le hm.1), ← upToLast_any (survives p) ks]
      refine any_congr_mem fun k hk' => ?_
      have hk := (upToLast_prefix _ _).subset hk'
      exact ih p k hw.2 (hc.2 k hk) (he k hk) (hm.2 k hk) (hb.imp id fun h => (h k hk).1)
  | array h prune m ih =>
    intro p e hw hc he hm hb
    cases e <;> simp only [Conforms] at hc
    rename_i n ks
    simp only [EachScalar, WellNamed, NoBlanks, broughtBack] at he hw hb ⊢
    rw [survives_array, survives_array, List.any_map]
    cases m <;> simp [isContainer] at hw
    rename_i hdr t
    cases p with
    | true =>
      rw [← any_filter_self (survives true) ks]
      have hf : ks.filter (fun k => !(arrayDrops true prune h.name (Schema.scalar hdr t).name && k.state.u == [])) = ks.filter (survives true) := by
        apply List.filter_congr
        intro k hk
        have hck := hc.2 k hk
        cases k <;> simp only [Conforms] at hck
        rw [survives_scalar]
        simp [arrayDrops, Elem.state]
      rw [hf]
      refine any_congr_mem fun k hk => ?_
      have hk := (List.mem_filter.1 hk).1
      have hck := hc.2 k hk
      have hek := he k hk
      cases k <;> simp only [Conforms] at hck
      simp only [EachScalar] at hek
      have := steady_text hek
      simp only [Bool.false_and, Bool.false_eq_true, if_false] at this
      simp [Function.comp, broughtBack, survives_scalar, this]
    | false =>
      have hb := hb.resolve_left (by simp)
      rw [List.filter_eq_self.2]
      · refine any_congr_mem fun k hk => ?_
        have hck := hc.2 k hk
        cases k <;> simp only [Conforms] at hck
        simp [Function.comp, broughtBack, survives_scalar]
      · intro k hk
        cases hd : arrayDrops false prune h.name (Schema.scalar hdr t).name with
        | false => rfl
        | true => simpa using hb hd k hk
  | nil p mode ks _ hc => cases ks <;> simp [ConformsAll, broughtBackAll] at *
  | cons f fs ihf ihfs p mode ks hw hc he hm hb =>
    cases ks with
    | nil => simp [ConformsAll] at hc
    | cons k ks =>
      simp only [ConformsAll, WellNamedAll, broughtBackAll, WithinMaxAll, NoBlanksAll, EachScalarAll] at hc hw he hm hb ⊢
      rw [List.any_cons, List.any_cons, ihfs p mode ks hw.2 hc.2 he.2 hm.2 (hb.imp id And.right)]
      congr 1
      rcases field_back (p := p) hw.1 hc.1 with ⟨h, hs, -⟩ | ⟨h, hck, -⟩
      · rw [h, hs]; rfl
      · rw [h]; exact ihf p k hw.1 hck he.1 hm.1 (hb.imp id And.left)

omit [Runtime] in
theorem noBlanks_absent {p : Bool} {s : Schema} : NoBlanks p s .absent := by
  cases s <;> simp [NoBlanks]

/-- pruning Lists and Arrays that come back hold nothing that would be dropped -/
theorem noBlanks_back {sep : PStr} (s : Schema) : ∀ (p : Bool) (e : Elem), WellNamed sep s → Conforms s e → EachScalar Steady p s e →
    WithinMax s e → NoBlanks p s (broughtBack p s e) := by
  induction s using Schema.rec (motive_2 := fun fs => ∀ (p : Bool) (mode : DictMode) (ks : List Elem), WellNamedAll sep fs →
    ConformsAll mode fs ks → EachScalarAll Steady p fs ks → WithinMaxAll fs ks → NoBlanksAll p fs (broughtBackAll p mode fs ks)) with
  | scalar h t =>
    intro p e hw hc he hm
    cases e <;> simp only [Conforms] at hc
    simp [broughtBack, NoBlanks]
  | dict h mode po fs ih =>
    intro p e hw hc he hm
    cases e <;> simp only [Conforms] at hc
    simp only [EachScalar, broughtBack, WellNamed, WithinMax, NoBlanks] at he hw hm ⊢
    exact ih p mode _ hw.2.2.2 hc.2 he hm
  | list h prune max m ih =>
    intro p e hw hc he hm
    cases e <;> simp only [Conforms] at hc
    rename_i n ks
    simp only [EachScalar, WellNamed, WithinMax] at he hw hm
    cases prune with
    | true =>
      simp only [Bool.or_true] at he
      simp only [broughtBack, NoBlanks, Bool.or_true]
      intro k hk
      obtain ⟨k', hk', rfl⟩ := List.mem_map.1 hk
      obtain ⟨hk1, hk2⟩ := List.mem_filter.1 (List.mem_of_mem_take hk')
      refine ⟨ih true k' hw.2 (hc.2 k' hk1) (he k' hk1) (hm.2 k' hk1), fun _ => ?_⟩
      rw [survives_back m true k' hw.2 (hc.2 k' hk1) (he k' hk1) (hm.2 k' hk1) (.inl rfl), hk2]
    | false =>
      simp only [Bool.or_false] at he
      simp only [broughtBack, NoBlanks, Bool.or_false]
      intro k hk
      obtain ⟨k', hk', rfl⟩ := List.mem_map.1 hk
      have hk1 := (upToLast_prefix _ _).subset (List.mem_of_mem_take hk')
      exact ⟨ih p k' hw.2 (hc.2 k' hk1) (he k' hk1) (hm.2 k' hk1), fun h => by simp at h⟩
  | array h prune m ih =>
    intro p e hw hc he hm
    cases e <;> simp only [Conforms] at hc
    rename_i n ks
    simp only [EachScalar, WellNamed, NoBlanks, broughtBack] at he hw ⊢
    intro hd k hk
    obtain ⟨k', hk', rfl⟩ := List.mem_map.1 hk
    obtain ⟨hk1, hk2⟩ := List.mem_filter.1 hk'
    have hck := hc.2 k' hk1
    have hek := he k' hk1
    cases m <;> simp [isContainer] at hw
    cases k' <;> simp only [Conforms] at hck
    simp only [EachScalar] at hek
    have := steady_text hek
    simp only [Bool.false_and, Bool.false_eq_true, if_false] at this
    simp only [hd, Bool.true_and, Elem.state] at hk2
    simp only [broughtBack, Elem.state, Bool.false_and, Bool.false_eq_true, if_false, this]
    simpa using hk2
  | nil p mode ks _ hc => cases ks <;> simp [ConformsAll, broughtBackAll, NoBlanksAll] at *
  | cons f fs ihf ihfs p mode ks hw hc he hm =>
    cases ks with
    | nil => simp [ConformsAll] at hc
    | cons k ks =>
      simp only [ConformsAll, WellNamedAll, broughtBackAll, WithinMaxAll, NoBlanksAll, EachScalarAll] at hc hw he hm ⊢
      refine ⟨?_, ihfs p mode ks hw.2 hc.2 he.2 hm.2⟩
      rcases field_back (p := p) hw.1 hc.1 with ⟨h, hs, -⟩ | ⟨h, hck, -⟩
      · rw [h]; exact noBlanks_absent
      · rw [h]; exact ihf p k hw.1 hck he.1 hm.1

/-- what has come back comes back as it is -/
theorem back_again {sep : PStr} (s : Schema) : ∀ (p : Bool) (e : Elem), WellNamed sep s → Conforms s e → EachScalar Steady p s e →
    WithinMax s e → NoBlanks p s e → broughtBack p s (broughtBack p s e) = broughtBack p s e := by
  induction s using Schema.rec (motive_2 := fun fs => ∀ (p : Bool) (mode : DictMode) (ks : List Elem), WellNamedAll sep fs →
    ConformsAll mode fs ks → EachScalarAll Steady p fs ks → WithinMaxAll fs ks → NoBlanksAll p fs ks →
    broughtBackAll p mode fs (broughtBackAll p mode fs ks) = broughtBackAll p mode fs ks) with
  | scalar h t =>
    intro p e hw hc he hm hb
    cases e <;> simp only [Conforms] at hc
    simp only [EachScalar] at he
    simp only [broughtBack]
    rw [steady_text he]
  | dict h mode po fs ih =>
    intro p e hw hc he hm hb
    cases e <;> simp only [Conforms] at hc
    simp only [EachScalar, broughtBack, WellNamed, WithinMax, NoBlanks] at he hw hm hb ⊢
    rw [ih p mode _ hw.2.2.2 hc.2 he hm hb]
  | list h prune max m ih =>
    intro p e hw hc he hm hb
    cases e <;> simp only [Conforms] at hc
    rename_i n ks
    simp only [EachScalar, WellNamed, WithinMax, NoBlanks] at he hw hm hb
    cases prune with
    | true =>
      simp only [Bool.or_true] at he hb
      simp only [broughtBack]
      have hk : ∀ k ∈ ks, survives true (broughtBack true m k) = survives true k := fun k hk =>
        survives_back m true k hw.2 (hc.2 k hk) (he k hk) (hm.2 k hk) (.inl rfl)
      rw [List.filter_eq_self.2, List.take_of_length_le (by simp only [List.length_map, List.length_take]; omega), List.map_map]
      · congr 1
        apply List.map_congr_left
        intro k hk'
        have hk1 := (List.mem_filter.1 (List.mem_of_mem_take hk')).1
        exact ih true k hw.2 (hc.2 k hk1) (he k hk1) (hm.2 k hk1) (hb k hk1).1
      · intro k hk'
        obtain ⟨k', hk2', rfl⟩ := List.mem_map.1 hk'
        obtain ⟨hk1, hk2⟩ := List.mem_filter.1 (List.mem_of_mem_take hk2')
        rw [hk k' hk1, hk2]
    | false =>
      simp only [Bool.or_false] at he hb
      simp only [broughtBack]
      have hk : ∀ k ∈ ks, survives p (broughtBack p m k) = survives p k := fun k hk =>
        survives_back m p k hw.2 (hc.2 k hk) (he k hk) (hm.2 k hk) (.inr (hb k hk).1)
      have hl : (upToLast (survives p) ks).length ≤ max := Nat.le_trans (upToLast_prefix _ _).length_le hm.1
      rw [List.take_of_length_le hl, upToLast_idem _ _ _ _ hk, List.take_of_length_le (by simpa using hl), List.map_map]
      congr 1
      apply List.map_congr_left
      intro k hk'
      have hk1 := (upToLast_prefix _ _).subset hk'
      exact ih p k hw.2 (hc.2 k hk1) (he k hk1) (hm.2 k hk1) (hb k hk1).1
  | array h prune m ih =>
    intro p e hw hc he hm hb
    cases e <;> simp only [Conforms] at hc
    rename_i n ks
    simp only [EachScalar, WellNamed, NoBlanks, broughtBack] at he hw hb ⊢
    cases m <;> simp [isContainer] at hw
    rename_i hdr t
    have hk : ∀ k ∈ ks, (broughtBack false (.scalar hdr t) k).state.u = k.state.u := by
      intro k hk
      have hck := hc.2 k hk
      have hek := he k hk
      cases k <;> simp only [Conforms] at hck
      simp only [EachScalar] at hek
      have := steady_text hek
      simp only [Bool.false_and, Bool.false_eq_true, if_false] at this
      simp only [broughtBack, Elem.state, Bool.false_and, Bool.false_eq_true, if_false, this]
    rw [List.filter_eq_self.2, List.map_map]
    · congr 1
      apply List.map_congr_left
      intro k hk'
      have hk1 := (List.mem_filter.1 hk').1
      exact ih false k hw.2 (hc.2 k hk1) (he k hk1) (by simp [WithinMax]) (by simp [NoBlanks])
    · intro k hk'
      obtain ⟨k', hk2', rfl⟩ := List.mem_map.1 hk'
      obtain ⟨hk1, hk2⟩ := List.mem_filter.1 hk2'
      rw [hk k' hk1, hk2]
  | nil p mode ks _ hc => cases ks <;> simp [ConformsAll, broughtBackAll] at *
  | cons f fs ihf ihfs p mode ks hw hc he hm hb =>
    cases ks with
    | nil => simp [ConformsAll] at hc
    | cons k ks =>
      simp only [ConformsAll, WellNamedAll, broughtBackAll, WithinMaxAll, NoBlanksAll, EachScalarAll] at hc hw he hm hb ⊢
      rw [ihfs p mode ks hw.2 hc.2 he.2 hm.2 hb.2]
      congr 1
      rcases field_back (p := p) hw.1 hc.1 with ⟨h, hs, ha⟩ | ⟨h, hck, hl⟩
      · rw [h]; simp [survives_absent, ha]
      · rw [h, survives_back f p k hw.1 hck he.1 hm.1 (.inr hb.1), ihf p k hw.1 hck he.1 hm.1 hb.1]
        exact h

/-- a steady scalar is steady after having been sent back -/
theorem steady_step (p : Bool) (t : ScalarType) (st : ScalarState) (h : Steady p t st) :
    Steady p t (if p && st.u == [] then .fresh else (scalarSet t .fresh (.str st.u)).1) := by
  have hu := steady_text h
  unfold Steady TakesItsText ReadsBack SameText
  rw [hu]
  exact ⟨h.1, hu.symm⟩

omit [Runtime] in
theorem each_of_types {P : ScalarType → Prop} {Q : Bool → ScalarType → ScalarState → Prop} (hPQ : ∀ p t st, P t → Q p t st) (s : Schema) :
    ∀ (p : Bool) (e : Elem), AllTypes P s → EachScalar Q p s e := by
  induction s using Schema.rec (motive_2 := fun fs => ∀ (p : Bool) (ks : List Elem), AllTypesIn P fs → EachScalarAll Q p fs ks) with
  | scalar h t => intro p e ht; cases e <;> simp only [EachScalar]; exact hPQ _ _ _ ht
  | dict h mode po fs ih => intro p e ht; cases e <;> simp only [EachScalar]; exact ih p _ ht
  | list h prune max m ih => intro p e ht; cases e <;> simp only [EachScalar]; exact fun k _ => ih _ k ht
  | array h prune m ih => intro p e ht; cases e <;> simp only [EachScalar]; exact fun k _ => ih _ k ht
  | nil p ks _ => cases ks <;> simp [EachScalarAll]
  | cons f fs ihf ihfs p ks ht =>
    cases ks with
    | nil => simp [EachScalarAll]
    | cons k ks => simp only [EachScalarAll]; exact ⟨ihf p k ht.1, ihfs p ks ht.2⟩

omit [Runtime] in
theorem each_imp {P Q : Bool → ScalarType → ScalarState → Prop} (hPQ : ∀ p t st, P p t st → Q p t st) (s : Schema) :
    ∀ (p : Bool) (e : Elem), EachScalar P p s e → EachScalar Q p s e := by
  induction s using Schema.rec (motive_2 := fun fs => ∀ (p : Bool) (ks : List Elem), EachScalarAll P p fs ks → EachScalarAll Q p fs ks) with
  | scalar h t => intro p e ht; cases e <;> simp only [EachScalar] at ht ⊢; exact hPQ _ _ _ ht
  | dict h mode po fs ih => intro p e ht; cases e <;> simp only [EachScalar] at ht ⊢; exact ih p _ ht
  | list h prune max m ih => intro p e ht; cases e <;> simp only [EachScalar] at ht ⊢; exact fun k hk => ih _ k (ht k hk)
  | array h prune m ih => intro p e ht; cases e <;> simp only [EachScalar] at ht ⊢; exact fun k hk => ih _ k (ht k hk)
  | nil p ks _ => cases ks <;> simp [EachScalarAll]
  | cons f fs ihf ihfs p ks ht =>
    cases ks with
    | nil => simp [EachScalarAll]
    | cons k ks => simp only [EachScalarAll] at ht ⊢; exact ⟨ihf p k ht.1, ihfs p ks ht.2⟩

theorem takes_of_steady {p : Bool} {s : Schema} {e : Elem} (h : EachScalar Steady p s e) : EachScalar TakesItsText p s e :=
  each_imp (fun _ _ _ h => h.1) s p e h

end Flatland
