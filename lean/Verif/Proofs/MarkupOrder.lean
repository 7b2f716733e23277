import Verif.Proofs.MarkupRender
/-
The order in which attributes are given does not matter.
-/
namespace Flatland
open Spec

/-! ### the order of attributes in the output -/

theorem strLt_irrefl : ∀ a, strLt a a = false := by
  intro a
  induction a with
  | nil => rfl
  | cons x a ih => simp [strLt, ih]

theorem strLt_trans : ∀ {a b c : PStr}, strLt a b = true → strLt b c = true → strLt a c = true := by
  intro a
  induction a with
  | nil =>
    intro b c h1 h2
    cases b with
    | nil => cases h1
    | cons y b =>
      cases c with
      | nil => cases h2
      | cons z c => rfl
  | cons x a ih =>
    intro b c h1 h2
    cases b with
    | nil => cases h1
    | cons y b =>
      cases c with
      | nil => cases h2
      | cons z c =>
        simp only [strLt] at h1 h2 ⊢
        by_cases e1 : x = y
        · subst e1
          by_cases e2 : x = z
          · subst e2
            simp only [if_true] at h1 h2 ⊢
            exact ih h1 h2
          · simp only [if_true, if_neg e2] at h1 h2 ⊢
            exact h2
        · by_cases e2 : y = z
          · subst e2
            simp only [if_true, if_neg e1] at h1 h2 ⊢
            exact h1
          · rw [if_neg e1] at h1
            rw [if_neg e2] at h2
            simp only [decide_eq_true_eq] at h1 h2
            have : x ≠ z := by rintro rfl; omega
            rw [if_neg this]
            simp
            omega

theorem strLt_total : ∀ {a b : PStr}, a ≠ b → strLt a b = true ∨ strLt b a = true := by
  intro a
  induction a with
  | nil =>
    intro b h
    cases b with
    | nil => exact absurd rfl h
    | cons y b => exact .inl rfl
  | cons x a ih =>
    intro b h
    cases b with
    | nil => exact .inr rfl
    | cons y b =>
      simp only [strLt]
      by_cases e : x = y
      · subst e
        simp only [if_true]
        exact ih (fun h' => h (by rw [h']))
      · rw [if_neg e, if_neg (Ne.symm e)]
        have : x.toNat ≠ y.toNat := fun h' => e (Char.toNat_inj.1 h')
        simp
        omega

theorem attrRank_le (k : PStr) : attrRank k ≤ 3 := by
  unfold attrRank
  split
  · omega
  · split
    · omega
    · split <;> omega

theorem attrRank_inj {a b : PStr} (h : attrRank a = attrRank b) (h3 : attrRank a < 3) : a = b := by
  unfold attrRank at h h3
  grind

theorem attrBefore_iff (a b : PStr) : attrBefore a b = true ↔ attrRank a < attrRank b ∨ (attrRank a = 3 ∧ attrRank b = 3 ∧ strLt a b = true) := by
  unfold attrBefore
  simp [and_assoc]

theorem attrBefore_irrefl (a : PStr) : attrBefore a a = false := by
  have h : ¬ attrBefore a a = true := by
    rw [attrBefore_iff, strLt_irrefl]
    simp
  simpa using h

theorem attrBefore_trans {a b c : PStr} (h1 : attrBefore a b = true) (h2 : attrBefore b c = true) : attrBefore a c = true := by
  rw [attrBefore_iff] at *
  rcases h1 with h1 | ⟨p1, p2, p3⟩
  · rcases h2 with h2 | ⟨q1, q2, q3⟩
    · left; omega
    · left; omega
  · rcases h2 with h2 | ⟨q1, q2, q3⟩
    · left; omega
    · exact .inr ⟨p1, q2, strLt_trans p3 q3⟩

theorem attrBefore_total {a b : PStr} (h : a ≠ b) : attrBefore a b = true ∨ attrBefore b a = true := by
  rw [attrBefore_iff, attrBefore_iff]
  have ha := attrRank_le a
  have hb := attrRank_le b
  by_cases h3 : attrRank a = 3 ∧ attrRank b = 3
  · rcases strLt_total h with hl | hl
    · exact .inl (.inr ⟨h3.1, h3.2, hl⟩)
    · exact .inr (.inr ⟨h3.2, h3.1, hl⟩)
  · have : attrRank a ≠ attrRank b := fun he => h (attrRank_inj he (by omega))
    omega

/-- sorted: every attribute comes before the later ones -/
def AttrSorted (l : Attrs) : Prop := l.Pairwise (fun p q => attrBefore p.1 q.1 = true)

theorem insertAttr_sorted (p : PStr × HtmlVal) : ∀ l : Attrs, AttrSorted l → (∀ q ∈ l, q.1 ≠ p.1) → AttrSorted (insertAttr p l) := by
  intro l
  induction l with
  | nil => intro _ _; simp [insertAttr, AttrSorted]
  | cons q l ih =>
    intro hs hp
    simp only [AttrSorted, List.pairwise_cons] at hs
    simp only [insertAttr]
    by_cases h : attrBefore p.1 q.1 = true
    · rw [if_pos h]
      simp only [AttrSorted, List.pairwise_cons]
      refine ⟨?_, hs⟩
      intro r hr
      simp only [List.mem_cons] at hr
      rcases hr with rfl | hr
      · exact h
      · exact attrBefore_trans h (hs.1 r hr)
    · rw [if_neg h]
      have hq : attrBefore q.1 p.1 = true := (attrBefore_total (hp q (by simp))).resolve_right h
      simp only [AttrSorted, List.pairwise_cons]
      refine ⟨?_, ih hs.2 (fun r hr => hp r (by simp [hr]))⟩
      intro r hr
      have := (insertAttr_perm p l).mem_iff.1 hr
      simp only [List.mem_cons] at this
      rcases this with rfl | hr
      · exact hq
      · exact hs.1 r hr

theorem sortAttrs_sorted : ∀ l : Attrs, DictLike l → AttrSorted (sortAttrs l) := by
  intro l
  induction l with
  | nil => intro _; simp [sortAttrs, AttrSorted]
  | cons p l ih =>
    intro h
    simp only [DictLike, dictKeys, List.map_cons, List.nodup_cons] at h
    refine insertAttr_sorted p _ (ih h.2) ?_
    intro q hq heq
    have := (sortAttrs_perm l).mem_iff.1 hq
    exact h.1 (by rw [← heq]; exact List.mem_map_of_mem this)

theorem sortAttrs_congr {l l' : Attrs} (h : DictLike l) (hp : l.Perm l') : sortAttrs l = sortAttrs l' := by
  have h' : DictLike l' := by
    unfold DictLike dictKeys at *
    exact (hp.map _).nodup_iff.1 h
  refine List.Perm.eq_of_pairwise ?_ (sortAttrs_sorted l h) (sortAttrs_sorted l' h') ((sortAttrs_perm l).trans (hp.trans (sortAttrs_perm l').symm))
  intro a b _ _ h1 h2
  have := attrBefore_trans h1 h2
  rw [attrBefore_irrefl] at this
  cases this

theorem nodup_of_keys {l : Attrs} (h : DictLike l) : l.Nodup := by
  unfold DictLike dictKeys List.Nodup at h
  exact List.Pairwise.of_map (S := fun a b => a ≠ b) Prod.fst (fun a b hab he => hab (by rw [he])) h

theorem perm_of_get {l l' : Attrs} (h : DictLike l) (h' : DictLike l') (he : ∀ k, dictGet l k = dictGet l' k) : l.Perm l' := by
  have n1 : l.Nodup := nodup_of_keys h
  have n2 : l'.Nodup := nodup_of_keys h'
  rw [List.perm_ext_iff_of_nodup n1 n2]
  rintro ⟨k, v⟩
  rw [dictGet_mem h, dictGet_mem h', he]

/-! ### the transforms only look attributes up -/

/-- the same attributes, perhaps in another order -/
structure SameAttrs (s t : TagState) : Prop where
  left : DictLike s.attrs
  right : DictLike t.attrs
  get : ∀ k, dictGet s.attrs k = dictGet t.attrs k
  contents : s.contents = t.contents
  frame : s.frame = t.frame

theorem SameAttrs.agree {s t : TagState} (h : SameAttrs s t) (k : PStr) : attrGet s.attrs k = attrGet t.attrs k := by
  unfold attrGet; rw [h.get]

theorem SameAttrs.put {s t : TagState} (h : SameAttrs s t) (k : PStr) (v : HtmlVal) : SameAttrs (s.put k v) (t.put k v) where
  left := nodup_dictKeys_put h.left k v
  right := nodup_dictKeys_put h.right k v
  get k' := by
    show dictGet (dictPut s.attrs k v) k' = dictGet (dictPut t.attrs k v) k'
    rw [dictGet_put, dictGet_put, h.get]
  contents := h.contents
  frame := h.frame

theorem SameAttrs.del {s t : TagState} (h : SameAttrs s t) (k : PStr) : SameAttrs (s.del k) (t.del k) where
  left := nodup_dictKeys_del h.left k
  right := nodup_dictKeys_del h.right k
  get k' := by
    show dictGet (dictDel s.attrs k) k' = dictGet (dictDel t.attrs k) k'
    rw [dictGet_del _ _ _ h.left, dictGet_del _ _ _ h.right, h.get]
  contents := h.contents
  frame := h.frame

/-- both succeed with the same attributes, or both raise the same -/
def SameResult (x y : Except PyErr TagState) : Prop :=
  (∃ s t, x = .ok s ∧ y = .ok t ∧ SameAttrs s t) ∨ ∃ e, x = .error e ∧ y = .error e

theorem SameResult.ok {s t : TagState} (h : SameAttrs s t) : SameResult (.ok s) (.ok t) := .inl ⟨s, t, rfl, rfl, h⟩

theorem SameResult.bind {x y : Except PyErr TagState} {f g : TagState → Except PyErr TagState} (h : SameResult x y)
    (hfg : ∀ s t, SameAttrs s t → SameResult (f s) (g t)) : SameResult (x >>= f) (y >>= g) := by
  rcases h with ⟨s, t, rfl, rfl, h⟩ | ⟨e, rfl, rfl⟩
  · exact hfg s t h
  · exact .inr ⟨e, rfl, rfl⟩

section
variable [Runtime] [Casing]

/-- `_pop_toggle` gives the same answer -/
theorem popToggle_same {s t : TagState} (key : PStr) (h : SameAttrs s t) :
    (∃ p f, popToggle key s = .ok (p, f, s.del key) ∧ popToggle key t = .ok (p, f, t.del key)) ∨ (∃ e, popToggle key s = .error e ∧ popToggle key t = .error e) := by
  unfold popToggle
  have hf : (t.del key).frame = s.frame := h.frame.symm
  have hf' : (s.del key).frame = s.frame := rfl
  simp only [h.get key, hf, hf']
  split
  · cases dictGet s.frame key with
    | none => exact .inr ⟨_, rfl, rfl⟩
    | some c =>
      simp only []
      split
      · exact .inl ⟨_, _, rfl, rfl⟩
      · exact .inl ⟨_, _, rfl, rfl⟩
  · exact .inl ⟨_, _, rfl, rfl⟩

theorem pop_then {key : PStr} {s t : TagState} (h : SameAttrs s t) {F G : Bool × Bool × TagState → Except PyErr TagState}
    (hFG : ∀ p f, SameResult (F (p, f, s.del key)) (G (p, f, t.del key))) : SameResult (popToggle key s >>= F) (popToggle key t >>= G) := by
  rcases popToggle_same key h with ⟨p, f, e1, e2⟩ | ⟨e, e1, e2⟩
  · rw [e1, e2]
    exact hFG p f
  · rw [e1, e2]
    exact .inr ⟨e, rfl, rfl⟩

theorem transformName_same (tag : PStr) (bd : Option Bind) {s t : TagState} (h : SameAttrs s t) :
    SameResult (transformName tag bd s) (transformName tag bd t) := by
  unfold transformName
  refine pop_then h ?_
  intro p f
  have hd := h.del kAutoName
  simp only [hd.agree]
  cases bd with
  | none => exact .ok hd
  | some b =>
    simp only []
    split
    · exact .ok hd
    · split
      · exact .ok hd
      · split
        · exact .ok (hd.put _ _)
        · exact .ok hd

omit [Runtime] [Casing] in
theorem boxValue_same (b : Bind) (cb : Bool) {s t : TagState} (h : SameAttrs s t) :
    (boxValue b cb s).1 = (boxValue b cb t).1 ∧ SameAttrs (boxValue b cb s).2 (boxValue b cb t).2 := by
  unfold boxValue
  cases cb with
  | false => simp only [Bool.false_eq_true, if_false, h.get]; exact ⟨trivial, h⟩
  | true =>
    simp only [if_true, h.agree]
    cases attrGet t.attrs kValue <;> cases b.kind <;> first | exact ⟨rfl, h⟩ | exact ⟨rfl, h.put _ _⟩

omit [Runtime] [Casing] in
theorem markAs_same (k : PStr) (on : Bool) {s t : TagState} (h : SameAttrs s t) : SameAttrs (markAs k on s) (markAs k on t) := by
  unfold markAs
  split
  · exact h.put _ _
  · exact h.del _

omit [Runtime] [Casing] in
theorem fillValue_same (b : Bind) (f : Bool) {s t : TagState} (h : SameAttrs s t) : SameAttrs (fillValue b f s) (fillValue b f t) := by
  unfold fillValue
  rw [h.agree]
  split
  · exact h.put _ _
  · exact h

omit [Casing] in
theorem optionValue_same {s t : TagState} (h : SameAttrs s t) : optionValue s = optionValue t := by
  unfold optionValue
  rw [h.agree, h.contents]

theorem transformValue_same (tag : PStr) (bd : Option Bind) {s t : TagState} (h : SameAttrs s t) :
    SameResult (transformValue tag bd s) (transformValue tag bd t) := by
  unfold transformValue
  refine pop_then h ?_
  intro p f
  have hd := h.del kAutoValue
  simp only [hd.get]
  cases bd with
  | none => exact .ok hd
  | some b =>
    simp only []
    split
    · exact .ok hd
    · split
      · exact .ok hd
      · split
        · split
          · obtain ⟨e1, e2⟩ := boxValue_same b (((dictGet (t.del kAutoValue).attrs kType).getD (.text [])).eqText "checkbox".toList) hd
            generalize boxValue b _ (s.del kAutoValue) = bs at e1 e2 ⊢
            generalize boxValue b _ (t.del kAutoValue) = bt at e1 e2 ⊢
            obtain ⟨c1, s1⟩ := bs
            obtain ⟨c2, t1⟩ := bt
            simp only [] at e1 e2 ⊢
            subst e1
            cases bindMatches b c1 with
            | error e => exact .inr ⟨e, rfl, rfl⟩
            | ok on => exact .ok (markAs_same _ _ e2)
          · split
            · split
              · exact .ok (hd.put _ _)
              · exact .ok hd
            · exact .ok (fillValue_same _ _ hd)
        · split
          · rw [optionValue_same hd]
            cases bindMatches b (optionValue (t.del kAutoValue)) with
            | error e => exact .inr ⟨e, rfl, rfl⟩
            | ok on => exact .ok (markAs_same _ _ hd)
          · split
            · rw [hd.contents]
              split
              · exact .ok ⟨hd.left, hd.right, hd.get, rfl, hd.frame⟩
              · exact .ok hd
            · exact .ok (fillValue_same _ _ hd)

theorem transformDomid_same (tag : PStr) (bd : Option Bind) {s t : TagState} (h : SameAttrs s t) :
    SameResult (transformDomid tag bd s) (transformDomid tag bd t) := by
  unfold transformDomid
  refine pop_then h ?_
  intro p f
  have hd := h.del kAutoDomid
  simp only [hd.agree, hd.frame, rawDomid_congr tag bd (hd.get kName) (hd.get kType) (hd.get kValue)]
  split
  · exact .ok hd
  · split
    · cases rawDomid tag (t.del kAutoDomid).attrs bd with
      | error e => exact .inr ⟨e, rfl, rfl⟩
      | ok raw =>
        simp only [ok_bind]
        split
        · exact .ok hd
        · cases formatDomid (t.del kAutoDomid).frame raw with
          | error e => exact .inr ⟨e, rfl, rfl⟩
          | ok x => exact .ok (hd.put _ _)
    · exact .ok hd

theorem transformFor_same (tag : PStr) (bd : Option Bind) {s t : TagState} (h : SameAttrs s t) :
    SameResult (transformFor tag bd s) (transformFor tag bd t) := by
  unfold transformFor
  refine pop_then h ?_
  intro p f
  have hd := h.del kAutoFor
  cases bd with
  | none => exact .ok hd
  | some b =>
  simp only [hd.agree, hd.frame, rawDomid_congr tag (some b) (hd.get kName) (hd.get kType) (hd.get kValue)]
  split
  · exact .ok hd
  · split
    · cases rawDomid tag (t.del kAutoFor).attrs (some b) with
      | error e => exact .inr ⟨e, rfl, rfl⟩
      | ok raw =>
        simp only [ok_bind]
        split
        · exact .ok hd
        · cases formatDomid (t.del kAutoFor).frame raw with
          | error e => exact .inr ⟨e, rfl, rfl⟩
          | ok x => exact .ok (hd.put _ _)
    · exact .ok hd

theorem transformTabindex_same (tag : PStr) {s t : TagState} (h : SameAttrs s t) : SameResult (transformTabindex tag s) (transformTabindex tag t) := by
  unfold transformTabindex
  refine pop_then h ?_
  intro p f
  have hd := h.del kAutoTabindex
  simp only [hd.agree, hd.frame]
  split
  · exact .ok hd
  · cases dictGet (t.del kAutoTabindex).frame kTabindex with
    | none => exact .inr ⟨_, rfl, rfl⟩
    | some v =>
      cases v with
      | int n =>
        simp only []
        split
        · exact .ok hd
        · split
          · split
            · have := hd.put kTabindex (.text (decimalInt n))
              refine .ok ⟨this.left, this.right, this.get, this.contents, ?_⟩
              show dictPut _ _ _ = dictPut _ _ _
              rw [this.frame]
            · exact .ok (hd.put _ _)
          · exact .ok hd
      | _ => exact .inr ⟨_, rfl, rfl⟩

theorem transformFilters_same (tag : PStr) {s t : TagState} (h : SameAttrs s t) : SameResult (transformFilters [] tag s) (transformFilters [] tag t) := by
  unfold transformFilters
  refine pop_then h ?_
  intro p f
  have hd := h.del kAutoFilter
  simp only [List.foldl_nil]
  split <;> exact .ok hd

theorem transformTag_same (tag : PStr) (bd : Option Bind) {s t : TagState} (h : SameAttrs s t) :
    SameResult (transformTag [] tag bd s) (transformTag [] tag bd t) := by
  unfold transformTag
  exact (transformName_same tag bd h).bind fun _ _ h => (transformValue_same tag bd h).bind fun _ _ h => (transformDomid_same tag bd h).bind fun _ _ h =>
    (transformFor_same tag bd h).bind fun _ _ h => (transformTabindex_same tag h).bind fun _ _ h => transformFilters_same tag h

theorem tagOpen_same (tag : PStr) (bd : Option Bind) (kw kw' : Attrs) (f : OptFrame) (hf : FullFrame f) (ho : OrderedAttrs f)
    (h : SameAttrs (tagInput kw f) (tagInput kw' f)) : tagOpen [] tag bd kw f = tagOpen [] tag bd kw' f := by
  unfold tagOpen
  rcases transformTag_same tag bd h with ⟨s, t, e1, e2, hst⟩ | ⟨e, e1, e2⟩
  · rw [e1, e2]
    simp only [hst.contents, hst.frame]
    obtain ⟨_, _, _, _, s5, st⟩ := stages_of_ok h.right hf e2
    have hfr : dictGet t.frame kOrdered = dictGet f kOrdered := by
      obtain ⟨_, _, _, _, f5⟩ := transformTabindex_spec tag st.t4.dict (st.full5 hf) st.e5
      rw [st.f6]
      rcases f5 with f5 | ⟨n, f5⟩
      · rw [f5, st.f4]; rfl
      · rw [f5, dictGet_put, if_neg (by decide), st.f4]; rfl
    obtain ⟨v, hv, htr⟩ := ho
    rw [hfr, hv]
    simp only [htr, if_true, ok_bind, sortAttrs_congr hst.left (perm_of_get hst.left hst.right hst.get)]
  · rw [e1, e2]

end

theorem unicodeKeyed_dict (kw : Attrs) : DictLike (unicodeKeyed kw) := dictOf_nodup _

theorem unicodeKeyed_perm {kw kw' : Attrs} (hp : kw.Perm kw') (hn : (kw.map (fun p => stripKey p.1)).Nodup) (k : PStr) :
    dictGet (unicodeKeyed kw) k = dictGet (unicodeKeyed kw') k := by
  have key : ∀ (kw : Attrs), (kw.map (fun p => stripKey p.1)).Nodup → ∀ v, dictGet (unicodeKeyed kw) k = some v ↔ ∃ p ∈ kw, stripKey p.1 = k ∧ p.2 = v := by
    intro kw hn v
    unfold unicodeKeyed
    rw [dictOf_get]
    change (∃ l r, kw.map (fun p => (stripKey p.1, p.2)) = l ++ (k, v) :: r ∧ ∀ p ∈ r, p.1 ≠ k) ↔ _
    constructor
    · rintro ⟨l, r, h, _⟩
      have : (k, v) ∈ kw.map (fun p => (stripKey p.1, p.2)) := by rw [h]; simp
      obtain ⟨p, hp, he⟩ := List.mem_map.1 this
      simp only [Prod.mk.injEq] at he
      exact ⟨p, hp, he.1, he.2⟩
    · rintro ⟨p, hp, rfl, rfl⟩
      obtain ⟨l, r, rfl⟩ := List.append_of_mem hp
      refine ⟨l.map (fun p => (stripKey p.1, p.2)), r.map (fun p => (stripKey p.1, p.2)), by simp, ?_⟩
      intro q hq
      obtain ⟨q', hq', rfl⟩ := List.mem_map.1 hq
      simp only [List.map_append, List.map_cons, List.nodup_append, List.nodup_cons] at hn
      intro he
      exact hn.2.1.1 (by rw [← he]; exact List.mem_map_of_mem (f := fun p : PStr × HtmlVal => stripKey p.1) hq')
  have hn' : (kw'.map (fun p => stripKey p.1)).Nodup := (hp.map _).nodup_iff.1 hn
  ext v
  rw [key kw hn, key kw' hn']
  constructor
  · rintro ⟨p, h, r⟩; exact ⟨p, hp.mem_iff.1 h, r⟩
  · rintro ⟨p, h, r⟩; exact ⟨p, hp.mem_iff.2 h, r⟩

theorem dictDel_sublist (kw : Attrs) (k : PStr) : (dictDel kw k).Sublist kw := by
  induction kw with
  | nil => exact .slnil
  | cons p kw ih =>
    simp only [dictDel]
    split
    · exact List.sublist_cons_self _ _
    · exact ih.cons_cons p

theorem dictLike_of_strip {kw : Attrs} (hn : (kw.map (fun p => stripKey p.1)).Nodup) : DictLike kw := by
  unfold DictLike dictKeys
  unfold List.Nodup at *
  have : kw.map (fun p => stripKey p.1) = (kw.map Prod.fst).map stripKey := by rw [List.map_map]; rfl
  rw [this] at hn
  exact List.Pairwise.of_map (S := fun a b => a ≠ b) stripKey (fun a b hab he => hab (by rw [he])) hn

theorem get_perm {kw kw' : Attrs} (h : DictLike kw) (hp : kw.Perm kw') (k : PStr) : dictGet kw k = dictGet kw' k := by
  have h' : DictLike kw' := by
    unfold DictLike dictKeys at *
    exact (hp.map _).nodup_iff.1 h
  ext v
  rw [← dictGet_mem h, ← dictGet_mem h', hp.mem_iff]

theorem tagInput_same {kw kw' : Attrs} (hp : kw.Perm kw') (hn : (kw.map (fun p => stripKey p.1)).Nodup) (f : OptFrame) :
    SameAttrs (tagInput kw f) (tagInput kw' f) where
  left := unicodeKeyed_dict _
  right := unicodeKeyed_dict _
  get k := by
    have hd := dictLike_of_strip hn
    have hn' : (kw'.map (fun p => stripKey p.1)).Nodup := (hp.map _).nodup_iff.1 hn
    have hd' := dictLike_of_strip hn'
    refine unicodeKeyed_perm ?_ (((dictDel_sublist kw _).map _).nodup hn) k
    refine perm_of_get (nodup_dictKeys_del hd _) (nodup_dictKeys_del hd' _) ?_
    intro k'
    rw [dictGet_del _ _ _ hd, dictGet_del _ _ _ hd', get_perm hd hp]
  contents := by
    show (dictGet kw _).getD .none = (dictGet kw' _).getD .none
    rw [get_perm (dictLike_of_strip hn) hp]
  frame := rfl

theorem strLt_lt {a b : PStr} (h : strLt a b = true) : a < b := by
  have lt_of : ∀ a b : PStr, strLt a b = true → a < b := by
    intro a
    induction a with
    | nil =>
      intro b hb
      cases b with
      | nil => cases hb
      | cons y b => exact List.nil_lt_cons _ _
    | cons x a ih =>
      intro b hb
      cases b with
      | nil => cases hb
      | cons y b =>
        simp only [strLt] at hb
        split at hb
        · rename_i e
          subst e
          exact List.cons_lt_cons_iff.2 (.inr ⟨rfl, ih b hb⟩)
        · exact List.cons_lt_cons_iff.2 (.inl (by simpa [Char.lt_def, UInt32.lt_iff_toNat_lt] using hb))
  exact lt_of a b h

end Flatland
