import Verif.Proofs.Markup
/-
The transforms taken together.
-/
namespace Flatland
open Spec

section
variable [Runtime] [Casing]

theorem transformTag_filters (fs : List TagFilter) (tag : PStr) (bd : Option Bind) {s : TagState} (hd : DictLike s.attrs) (hf : FullFrame s.frame) :
    (¬ SwitchedOn s.attrs s.frame kAutoFilter → transformTag fs tag bd s = transformTag [] tag bd s) ∧
    (SwitchedOn s.attrs s.frame kAutoFilter → transformTag fs tag bd s =
      (transformTag [] tag bd s).map (fun s' => fs.foldl (fun s f => if f.tags = [] ∨ tag ∈ f.tags then f.run tag s else s) s')) := by
  have key : ∀ s5, (∃ s1 s2 s3 s4, transformName tag bd s = .ok s1 ∧ transformValue tag bd s1 = .ok s2 ∧ transformDomid tag bd s2 = .ok s3 ∧
      transformFor tag bd s3 = .ok s4 ∧ transformTabindex tag s4 = .ok s5) →
      FullFrame s5.frame ∧ (SwitchedOn s5.attrs s5.frame kAutoFilter ↔ SwitchedOn s.attrs s.frame kAutoFilter) := by
    rintro s5 ⟨s1, s2, s3, s4, e1, e2, e3, e4, e5⟩
    obtain ⟨s1', e1', t1, _, f1, _⟩ := transformName_spec tag bd hd hf
    rw [e1] at e1'
    cases e1'
    obtain ⟨t2, f2, _⟩ := transformValue_spec tag bd t1.dict (by rw [f1]; exact hf) e2
    obtain ⟨t3, f3, _⟩ := transformDomid_spec tag bd t2.dict (by rw [f2, f1]; exact hf) e3
    obtain ⟨t4, f4, _⟩ := transformFor_spec tag bd t3.dict (by rw [f3, f2, f1]; exact hf) e4
    have hf4 : FullFrame s4.frame := by rw [f4, f3, f2, f1]; exact hf
    obtain ⟨t5, _, _, _, f5⟩ := transformTabindex_spec tag t4.dict hf4 e5
    have ha : dictGet s5.attrs kAutoFilter = dictGet s.attrs kAutoFilter := by
      rw [t5.same _ (by decide) (by decide), t4.same _ (by decide) (by decide), t3.same _ (by decide) (by decide),
        t2.same _ (by decide) (by decide), t1.same _ (by decide) (by decide)]
    have hfr : dictGet s5.frame kAutoFilter = dictGet s.frame kAutoFilter := by
      have h4 : s4.frame = s.frame := by rw [f4, f3, f2, f1]
      rcases f5 with f5 | ⟨n, f5⟩
      · rw [f5, h4]
      · rw [f5, dictGet_put, if_neg (by decide), h4]
    refine ⟨?_, ?_⟩
    · rcases f5 with f5 | ⟨n, f5⟩
      · rw [f5]; exact hf4
      · rw [f5]; exact full_put hf4 _ _
    · unfold SwitchedOn Spec.option
      rw [given_congr ha, hfr]
  unfold transformTag
  cases e1 : transformName tag bd s with
  | error e => exact ⟨fun _ => rfl, fun _ => rfl⟩
  | ok s1 =>
  simp only [ok_bind]
  cases e2 : transformValue tag bd s1 with
  | error e => exact ⟨fun _ => rfl, fun _ => rfl⟩
  | ok s2 =>
  simp only [ok_bind]
  cases e3 : transformDomid tag bd s2 with
  | error e => exact ⟨fun _ => rfl, fun _ => rfl⟩
  | ok s3 =>
  simp only [ok_bind]
  cases e4 : transformFor tag bd s3 with
  | error e => exact ⟨fun _ => rfl, fun _ => rfl⟩
  | ok s4 =>
  simp only [ok_bind]
  cases e5 : transformTabindex tag s4 with
  | error e => exact ⟨fun _ => rfl, fun _ => rfl⟩
  | ok s5 =>
  simp only [ok_bind]
  obtain ⟨hf5, hsw⟩ := key s5 ⟨s1, s2, s3, s4, e1, e2, e3, e4, e5⟩
  rw [← hsw, transformFilters_nil tag hf5]
  exact ⟨(transformFilters_spec fs tag hf5).1, fun h => by rw [(transformFilters_spec fs tag hf5).2 h]; rfl⟩

section
variable {tag : PStr} {bd : Option Bind} {s s1 s2 s3 s4 s5 s' : TagState}

theorem Stages.full5 (st : Stages tag bd s s1 s2 s3 s4 s5 s') (hf : FullFrame s.frame) : FullFrame s4.frame := by rw [st.f4]; exact hf

theorem Stages.gone (st : Stages tag bd s s1 s2 s3 s4 s5 s') : ∀ k ∈ autoKeys, dictGet s'.attrs k = .none := by
  intro k hk
  simp only [autoKeys, List.mem_cons, List.not_mem_nil, or_false] at hk
  have g5 := st.t5.gone
  have g4 := st.t4.gone
  have g3 := st.t3.gone
  have g2 := st.t2.gone
  have g1 := st.t1.gone
  rcases hk with rfl | rfl | rfl | rfl | rfl | rfl
  · rw [st.t6.same _ (by decide) (by decide), st.t5.same _ (by decide) (by decide), st.t4.same _ (by decide) (by decide),
      st.t3.same _ (by decide) (by decide), st.t2.same _ (by decide) (by decide), g1]
  · rw [st.t6.same _ (by decide) (by decide), st.t5.same _ (by decide) (by decide), st.t4.same _ (by decide) (by decide),
      st.t3.same _ (by decide) (by decide), g2]
  · rw [st.t6.same _ (by decide) (by decide), st.t5.same _ (by decide) (by decide), st.t4.same _ (by decide) (by decide), g3]
  · rw [st.t6.same _ (by decide) (by decide), st.t5.same _ (by decide) (by decide), g4]
  · rw [st.t6.same _ (by decide) (by decide), g5]
  · exact st.t6.gone

theorem Stages.others (st : Stages tag bd s s1 s2 s3 s4 s5 s') {k : PStr} (h1 : k ∉ autoKeys) (h2 : k ∉ generatedKeys) :
    dictGet s'.attrs k = dictGet s.attrs k := by
  simp only [autoKeys, generatedKeys, List.mem_cons, List.not_mem_nil, or_false, not_or] at h1 h2
  rw [st.t6.same k (by simp [h1]) (by simp), st.t5.same k (by simp [h1]) (by simp [h2]), st.t4.same k (by simp [h1]) (by simp [h2]),
    st.t3.same k (by simp [h1]) (by simp [h2]), st.t2.same k (by simp [h1]) (by simp [h2]), st.t1.same k (by simp [h1]) (by simp [h2])]

theorem Stages.last (st : Stages tag bd s s1 s2 s3 s4 s5 s') {k : PStr} (h : k ≠ kAutoFilter) : dictGet s'.attrs k = dictGet s5.attrs k :=
  st.t6.same k h (by simp)

theorem Stages.contents (st : Stages tag bd s s1 s2 s3 s4 s5 s') (hd : DictLike s.attrs) (hf : FullFrame s.frame) : s'.contents = s2.contents ∧ s1.contents = s.contents := by
  have c6 : s'.contents = s5.contents := by rw [st.e6]; rfl
  have c5 := (transformTabindex_spec tag st.t4.dict (st.full5 hf) st.e5).2.1
  have c4 := (transformFor_spec tag bd st.t3.dict (by rw [st.f3]; exact hf) st.e4).2.2.1
  have c3 := (transformDomid_spec tag bd st.t2.dict (by rw [st.f2]; exact hf) st.e3).2.2.1
  obtain ⟨s1', e1', _, c1, _⟩ := transformName_spec tag bd hd hf
  have := st.e1
  rw [e1'] at this
  cases this
  exact ⟨by rw [c6, c5, c4, c3], c1⟩

theorem Stages.name (st : Stages tag bd s s1 s2 s3 s4 s5 s') (hd : DictLike s.attrs) (hf : FullFrame s.frame) :
    (∀ b, bd = some b → b.name ≠ [] → Generated s.attrs s.frame kAutoName kName nameTags tag → dictGet s'.attrs kName = some (.text b.name)) ∧
    ((¬ ∃ b, bd = some b ∧ b.name ≠ [] ∧ Generated s.attrs s.frame kAutoName kName nameTags tag) → dictGet s'.attrs kName = dictGet s.attrs kName) := by
  obtain ⟨s1', e1', _, _, _, h⟩ := transformName_spec tag bd hd hf
  have := st.e1
  rw [e1'] at this
  cases this
  rw [st.t6.same _ (by decide) (by decide), st.t5.same _ (by decide) (by decide), st.t4.same _ (by decide) (by decide),
    st.t3.same _ (by decide) (by decide), st.t2.same _ (by decide) (by decide)]
  exact h

theorem Stages.later (st : Stages tag bd s s1 s2 s3 s4 s5 s') {k : PStr} (h : k ∈ [kName, kValue, kType, kChecked, kSelected]) :
    dictGet s'.attrs k = dictGet s2.attrs k := by
  simp only [List.mem_cons, List.not_mem_nil, or_false] at h
  rcases h with rfl | rfl | rfl | rfl | rfl <;>
    rw [st.t6.same _ (by decide) (by decide), st.t5.same _ (by decide) (by decide), st.t4.same _ (by decide) (by decide),
      st.t3.same _ (by decide) (by decide)]

theorem Stages.type (st : Stages tag bd s s1 s2 s3 s4 s5 s') : dictGet s'.attrs kType = dictGet s.attrs kType :=
  st.others (by decide) (by decide)

omit [Runtime] [Casing] in
theorem controlOf_congr {a a' : Attrs} (h : dictGet a kType = dictGet a' kType) : controlOf tag a = controlOf tag a' := by
  unfold controlOf attrGet
  rw [h]

omit [Runtime] [Casing] in
theorem boxStands_congr {a a' : Attrs} (b : Bind) (h : dictGet a kType = dictGet a' kType) (h2 : dictGet a kValue = dictGet a' kValue) : boxStands b a = boxStands b a' := by
  unfold boxStands attrGet
  rw [h, h2]

omit [Casing] in
theorem choiceStands_congr {a a' : Attrs} (c : HtmlVal) (h2 : dictGet a kValue = dictGet a' kValue) : choiceStands a c = choiceStands a' c := by
  unfold choiceStands attrGet
  rw [h2]

theorem forced_congr {a a' : Attrs} {k : PStr} (h : dictGet a' k = dictGet a k) : Forced a' k ↔ Forced a k := by
  unfold Forced; rw [given_congr h]

theorem valueOn_congr {a a' : Attrs} {f f' : OptFrame} (h : dictGet a' kAutoValue = dictGet a kAutoValue) (hf : f' = f) : ValueOn a' f' tag ↔ ValueOn a f tag := by
  unfold ValueOn SwitchedOn Forced
  rw [given_congr h, hf]

/-- `ValueDone` only looks at the attributes of value, type and the marks. -/
theorem ValueDone.congr {b : Bind} {a a' r r' : TagState} (h : ValueDone tag b a r) (hc : a'.contents = a.contents) (hc' : r'.contents = r.contents)
    (h1 : dictGet a'.attrs kAutoValue = dictGet a.attrs kAutoValue)
    (h2 : dictGet a'.attrs kType = dictGet a.attrs kType) (h3 : dictGet a'.attrs kValue = dictGet a.attrs kValue)
    (h4 : dictGet a'.attrs kChecked = dictGet a.attrs kChecked) (h5 : dictGet a'.attrs kSelected = dictGet a.attrs kSelected)
    (g3 : dictGet r'.attrs kValue = dictGet r.attrs kValue)
    (g4 : dictGet r'.attrs kChecked = dictGet r.attrs kChecked) (g5 : dictGet r'.attrs kSelected = dictGet r.attrs kSelected) : ValueDone tag b a' r' := by
  have e1 : controlOf tag a'.attrs = controlOf tag a.attrs := controlOf_congr h2
  have e2 : boxStands b a'.attrs = boxStands b a.attrs := boxStands_congr b h2 h3
  have e3 : choiceStands a'.attrs a'.contents = choiceStands a.attrs a.contents := by rw [hc]; exact choiceStands_congr _ h3
  have e4 : Forced a'.attrs kAutoValue ↔ Forced a.attrs kAutoValue := forced_congr h1
  have e5 : attrGet a'.attrs kType = attrGet a.attrs kType := by unfold attrGet; rw [h2]
  have e6 : attrGet a'.attrs kValue = attrGet a.attrs kValue := by unfold attrGet; rw [h3]
  constructor
  · rw [e1, e2, e5, e6, g4, g3, h3]; exact h.box
  · rw [e1, e3, g5]; exact h.choice
  · rw [e1, e4, g3, h3]; exact h.secret
  · rw [e1, e4, hc, hc']; exact h.area
  · rw [e1, e4, e6, g3, h3]; exact h.field
  · rw [e1, g3, h3]; exact h.value_kept
  · rw [e1, g4, h4]; exact h.checked_kept
  · rw [e1, g5, h5]; exact h.selected_kept
  · rw [e1, hc, hc']; exact h.contents_kept

theorem Stages.value (st : Stages tag bd s s1 s2 s3 s4 s5 s') (hd : DictLike s.attrs) (hf : FullFrame s.frame) :
    (∀ b, bd = some b → ValueOn s.attrs s.frame tag → ValueDone tag b s s') ∧
    ((¬ ∃ b, bd = some b ∧ ValueOn s.attrs s.frame tag) →
      (∀ k ∈ [kValue, kChecked, kSelected], dictGet s'.attrs k = dictGet s.attrs k) ∧ s'.contents = s.contents) := by
  obtain ⟨_, _, h1, h2⟩ := transformValue_spec tag bd st.t1.dict (by rw [st.f1]; exact hf) st.e2
  have hv : ValueOn s1.attrs s1.frame tag ↔ ValueOn s.attrs s.frame tag := valueOn_congr (st.t1.same _ (by decide) (by decide)) st.f1
  obtain ⟨c2, c1⟩ := st.contents hd hf
  rw [hv] at h1 h2
  constructor
  · intro b hb hon
    refine (h1 b hb hon).congr c1.symm c2 ?_ ?_ ?_ ?_ ?_ ?_ ?_ ?_
    · exact (st.t1.same _ (by decide) (by decide)).symm
    · exact (st.t1.same _ (by decide) (by decide)).symm
    · exact (st.t1.same _ (by decide) (by decide)).symm
    · exact (st.t1.same _ (by decide) (by decide)).symm
    · exact (st.t1.same _ (by decide) (by decide)).symm
    · exact st.later (by decide)
    · exact st.later (by decide)
    · exact st.later (by decide)
  · intro hn
    have := h2 hn
    refine ⟨?_, by rw [c2, this.contents, c1]⟩
    intro k hk
    rw [st.later (by simp only [List.mem_cons, List.not_mem_nil, or_false] at hk ⊢; rcases hk with rfl | rfl | rfl <;> simp)]
    simp only [List.mem_cons, List.not_mem_nil, or_false] at hk
    rcases hk with rfl | rfl | rfl <;> rw [this.same _ (by decide), st.t1.same _ (by decide) (by decide)]

theorem Stages.domid (st : Stages tag bd s s1 s2 s3 s4 s5 s') (hf : FullFrame s.frame) :
    (¬ Generated s.attrs s.frame kAutoDomid kId idTags tag → dictGet s'.attrs kId = dictGet s.attrs kId) ∧
    (Generated s.attrs s.frame kAutoDomid kId idTags tag → ∃ raw, rawDomid tag s'.attrs bd = .ok raw ∧
        (raw = [] → dictGet s'.attrs kId = dictGet s.attrs kId) ∧
        (raw ≠ [] → ∃ x, formatDomid s.frame raw = .ok x ∧ dictGet s'.attrs kId = some (.text x))) := by
  obtain ⟨_, _, _, h⟩ := transformDomid_spec tag bd st.t2.dict (by rw [st.f2]; exact hf) st.e3
  have hg : Generated s2.attrs s2.frame kAutoDomid kId idTags tag ↔ Generated s.attrs s.frame kAutoDomid kId idTags tag :=
    generated_congr (by rw [st.t2.same _ (by decide) (by decide), st.t1.same _ (by decide) (by decide)])
      (by rw [st.t2.same _ (by decide) (by decide), st.t1.same _ (by decide) (by decide)]) st.f2
  have hk : dictGet s2.attrs kId = dictGet s.attrs kId := by rw [st.t2.same _ (by decide) (by decide), st.t1.same _ (by decide) (by decide)]
  have hk' : dictGet s'.attrs kId = dictGet s3.attrs kId := by
    rw [st.t6.same _ (by decide) (by decide), st.t5.same _ (by decide) (by decide), st.t4.same _ (by decide) (by decide)]
  have hr : rawDomid tag s'.attrs bd = rawDomid tag s2.attrs bd := rawDomid_congr tag bd (st.later (by decide)) (st.later (by decide)) (st.later (by decide))
  rw [hk', hr]
  rw [hg, hk, st.f2] at h
  exact h

theorem Stages.forr (st : Stages tag bd s s1 s2 s3 s4 s5 s') (hf : FullFrame s.frame) :
    ((bd = .none ∨ ¬ Generated s.attrs s.frame kAutoFor kFor forTags tag) → dictGet s'.attrs kFor = dictGet s.attrs kFor) ∧
    (∀ b, bd = some b → Generated s.attrs s.frame kAutoFor kFor forTags tag → ∃ raw, rawDomid tag s'.attrs bd = .ok raw ∧
        (raw = [] → dictGet s'.attrs kFor = dictGet s.attrs kFor) ∧
        (raw ≠ [] → ∃ x, formatDomid s.frame raw = .ok x ∧ dictGet s'.attrs kFor = some (.text x))) := by
  obtain ⟨_, _, _, h⟩ := transformFor_spec tag bd st.t3.dict (by rw [st.f3]; exact hf) st.e4
  have hg : Generated s3.attrs s3.frame kAutoFor kFor forTags tag ↔ Generated s.attrs s.frame kAutoFor kFor forTags tag :=
    generated_congr (by rw [st.t3.same _ (by decide) (by decide), st.t2.same _ (by decide) (by decide), st.t1.same _ (by decide) (by decide)])
      (by rw [st.t3.same _ (by decide) (by decide), st.t2.same _ (by decide) (by decide), st.t1.same _ (by decide) (by decide)]) st.f3
  have hk : dictGet s3.attrs kFor = dictGet s.attrs kFor := by
    rw [st.t3.same _ (by decide) (by decide), st.t2.same _ (by decide) (by decide), st.t1.same _ (by decide) (by decide)]
  have hk' : dictGet s'.attrs kFor = dictGet s4.attrs kFor := by
    rw [st.t6.same _ (by decide) (by decide), st.t5.same _ (by decide) (by decide)]
  have hr : rawDomid tag s'.attrs bd = rawDomid tag s3.attrs bd :=
    rawDomid_congr tag bd (by rw [st.later (by decide), st.t3.same _ (by decide) (by decide)])
      (by rw [st.later (by decide), st.t3.same _ (by decide) (by decide)]) (by rw [st.later (by decide), st.t3.same _ (by decide) (by decide)])
  rw [hk', hr]
  rw [hg, hk, st.f3] at h
  exact h

theorem Stages.tabindex (st : Stages tag bd s s1 s2 s3 s4 s5 s') (hf : FullFrame s.frame) :
    (¬ Generated s.attrs s.frame kAutoTabindex kTabindex tabindexTags tag → s'.frame = s.frame ∧ dictGet s'.attrs kTabindex = dictGet s.attrs kTabindex) ∧
    (∀ n : Int, dictGet s.frame kTabindex = some (.int n) → Generated s.attrs s.frame kAutoTabindex kTabindex tabindexTags tag →
        (n = 0 → s'.frame = s.frame ∧ dictGet s'.attrs kTabindex = dictGet s.attrs kTabindex) ∧
        (n < 0 → s'.frame = s.frame ∧ dictGet s'.attrs kTabindex = some (.text (decimalInt n))) ∧
        (n > 0 → s'.frame = dictPut s.frame kTabindex (.int (n + 1)) ∧ dictGet s'.attrs kTabindex = some (.text (decimalInt n)))) := by
  obtain ⟨_, _, h1, h2, _⟩ := transformTabindex_spec tag st.t4.dict (st.full5 hf) st.e5
  have hk : ∀ k, k = kTabindex ∨ k = kAutoTabindex → dictGet s4.attrs k = dictGet s.attrs k := by
    rintro k (rfl | rfl) <;>
      rw [st.t4.same _ (by decide) (by decide), st.t3.same _ (by decide) (by decide), st.t2.same _ (by decide) (by decide), st.t1.same _ (by decide) (by decide)]
  have hg : Generated s4.attrs s4.frame kAutoTabindex kTabindex tabindexTags tag ↔ Generated s.attrs s.frame kAutoTabindex kTabindex tabindexTags tag :=
    generated_congr (hk _ (.inr rfl)) (hk _ (.inl rfl)) st.f4
  have hk' : dictGet s'.attrs kTabindex = dictGet s5.attrs kTabindex := st.last (by decide)
  rw [hk', st.f6]
  rw [hg, hk _ (.inl rfl), st.f4] at h1 h2
  exact ⟨h1, h2⟩

end
end

end Flatland
