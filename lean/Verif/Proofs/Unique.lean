import Verif.Proofs.RoundTrip
/-
Helper lemmas: flattened names identify scalars, and `flatten` agrees per key with the document-order leaves.
-/
namespace Flatland
open Spec

theorem flatName_eq_keyOf (sep : PStr) (np : NamePath) : flatName sep np = (keyOf sep np).getD [] := by
  induction np with
  | nil => rfl
  | cons n np ih =>
    rw [keyOf_cons]
    cases n with
    | none => simpa [flatName, addName] using ih
    | some n =>
      rw [addName_some]
      have hnil : ∀ np : NamePath, keyOf sep np = none ↔ np.filterMap id = [] := by
        intro np
        induction np with
        | nil => simp [keyOf]
        | cons a np ih2 =>
          rw [keyOf_cons]
          cases a with
          | none => simpa [addName] using ih2
          | some a => simp [addName_some]
      cases hk : keyOf sep np with
      | none =>
        have := (hnil np).1 hk
        show pyJoin sep (n :: np.filterMap id) = n
        rw [this]; rfl
      | some k =>
        rw [hk] at ih
        simp only [flatName, Option.getD_some] at ih ⊢
        have hne : np.filterMap id ≠ [] := by
          intro h0
          rw [(hnil np).2 h0] at hk
          simp at hk
        cases hf : np.filterMap id with
        | nil => exact absurd hf hne
        | cons a as =>
          rw [hf] at ih
          rw [List.filterMap_cons_some (b := n) (by rfl), hf]
          simp [pyJoin, ih]

theorem addName_inj {sep : PStr} (hs : sep ≠ []) (n : Option PStr) {a b : Option PStr}
    (h : addName sep n a = addName sep n b) : a = b := by
  cases n with
  | none => exact h
  | some n =>
    have hpos : 0 < sep.length := by cases sep <;> simp at hs ⊢
    cases a <;> cases b <;> simp only [addName, Option.some.injEq] at h
    · rfl
    · have := congrArg List.length h
      simp only [List.length_append] at this
      omega
    · have := congrArg List.length h
      simp only [List.length_append] at this
      omega
    · simpa using h

theorem mem_leavesKids {i0 : Nat} {ks : List Elem} {l : LeafAt} :
    l ∈ leavesKids i0 ks ↔ ∃ j k l', ks[j]? = some k ∧ l' ∈ leaves k ∧ l = ⟨(i0 + j) :: l'.pos, l'.names, l'.st⟩ := by
  induction ks generalizing i0 with
  | nil => simp [leavesKids]
  | cons k ks ih =>
    simp only [leavesKids, List.mem_append, List.mem_map, ih]
    constructor
    · rintro (⟨l', hl', rfl⟩ | ⟨j, k', l', hk', hl', rfl⟩)
      · exact ⟨0, k, l', rfl, hl', rfl⟩
      · exact ⟨j + 1, k', l', by simpa using hk', hl', by congr 2; omega⟩
    · rintro ⟨j, k', l', hk', hl', rfl⟩
      cases j with
      | zero =>
        simp only [List.getElem?_cons_zero, Option.some.injEq] at hk'
        subst hk'
        exact .inl ⟨l', hl', rfl⟩
      | succ j => exact .inr ⟨j, k', l', by simpa using hk', hl', by congr 2; omega⟩

theorem mem_leavesSlots {i0 : Nat} {ks : List Elem} {l : LeafAt} :
    l ∈ leavesSlots i0 ks ↔ ∃ j k l', ks[j]? = some k ∧ l' ∈ leaves k ∧
      l = ⟨(i0 + j) :: l'.pos, some (decimal (i0 + j)) :: l'.names, l'.st⟩ := by
  induction ks generalizing i0 with
  | nil => simp [leavesSlots]
  | cons k ks ih =>
    simp only [leavesSlots, List.mem_append, List.mem_map, ih]
    constructor
    · rintro (⟨l', hl', rfl⟩ | ⟨j, k', l', hk', hl', rfl⟩)
      · exact ⟨0, k, l', rfl, hl', rfl⟩
      · have : i0 + 1 + j = i0 + (j + 1) := by omega
        exact ⟨j + 1, k', l', by simpa using hk', hl', by rw [this]⟩
    · rintro ⟨j, k', l', hk', hl', rfl⟩
      cases j with
      | zero =>
        simp only [List.getElem?_cons_zero, Option.some.injEq] at hk'
        subst hk'
        exact .inl ⟨l', hl', rfl⟩
      | succ j =>
        have : i0 + 1 + j = i0 + (j + 1) := by omega
        exact .inr ⟨j, k', l', by simpa using hk', hl', by rw [this]⟩

theorem pair_mem_rel {sep : PStr} {e : Elem} {l : LeafAt} (h : l ∈ leaves e) : LeafAt.pair sep l ∈ rel sep false e := by
  simp only [rel, List.mem_map, List.mem_filter]
  exact ⟨l, ⟨h, by simp [dropped]⟩, rfl⟩

theorem leaf_key_ne_nil {sep : PStr} {s : Schema} {e : Elem} (hw : WellNamed sep s) (hc : Conforms s e) {l : LeafAt}
    (h : l ∈ leaves e) : keyOf sep l.names ≠ some [] :=
  rel_key_ne_nil sep false s e hw hc _ (pair_mem_rel h)

theorem conforms_not_absent {s : Schema} {e : Elem} (h : Conforms s e) : e ≠ .absent := by
  rintro rfl
  cases s <;> simp [Conforms] at h

theorem elemAt_cons_of {e k : Elem} {i : Nat} {r : Pos} (he : e ≠ .absent) (hk : e.kids[i]? = some k) :
    elemAt e (i :: r) = elemAt k r := by
  cases e <;> simp [elemAt, Elem.kids] at he hk ⊢ <;> simp [hk]

theorem sameSpot_cons {e k : Elem} {i : Nat} {p q : Pos} (he : e ≠ .absent) (hk : e.kids[i]? = some k)
    (h : SameSpot k p q) : SameSpot e (i :: p) (i :: q) := by
  rcases h with rfl | ⟨r, a, b, n, ks, rfl, rfl, hr⟩
  · exact .inl rfl
  · exact .inr ⟨i :: r, a, b, n, ks, rfl, rfl, by rw [elemAt_cons_of he hk, hr]⟩

variable [Runtime]

mutual
theorem same_key {sep : PStr} (hs : GoodSep sep) : ∀ (s : Schema) (e : Elem), WellNamed sep s → Conforms s e →
    ∀ l1 ∈ leaves e, ∀ l2 ∈ leaves e, keyOf sep l1.names = keyOf sep l2.names → SameSpot e l1.pos l2.pos
  | .scalar h t, .scalar n st, hw, hc => by
    intro l1 h1 l2 h2 _
    simp only [leaves, List.mem_singleton] at h1 h2
    subst h1; subst h2
    exact .inl rfl
  | .dict h mode po fs, .dict n ks, hw, hc => by
    intro l1 h1 l2 h2 heq
    simp only [Conforms, WellNamed] at hc hw
    simp only [leaves, List.mem_map] at h1 h2
    obtain ⟨a, ha, rfl⟩ := h1
    obtain ⟨b, hb, rfl⟩ := h2
    obtain ⟨i, k1, l1, hk1, hl1, rfl⟩ := mem_leavesKids.1 ha
    obtain ⟨j, k2, l2, hk2, hl2, rfl⟩ := mem_leavesKids.1 hb
    have hsep : sep ≠ [] := by obtain ⟨c, cs, rfl, _⟩ := hs; simp
    simp only [keyOf_cons] at heq
    have heq := addName_inj hsep n heq
    simp only [Nat.zero_add]
    by_cases hij : i = j
    · subst hij
      rw [hk1] at hk2
      simp only [Option.some.injEq] at hk2
      subst hk2
      have := same_key_all hs fs ks mode hw.2.2.2 hc.2 i k1 hk1 l1 hl1 l2 hl2 heq
      exact sameSpot_cons (by simp) hk1 this
    · exfalso
      obtain ⟨f, hf, hcf⟩ := conformsAll_get hc.2 hk1
      obtain ⟨g, hg, hcg⟩ := conformsAll_get hc.2 hk2
      have hcf : Conforms f k1 := by
        rcases hcf with ⟨rfl, _⟩ | h
        · simp [leaves] at hl1
        · exact h
      have hcg : Conforms g k2 := by
        rcases hcg with ⟨rfl, _⟩ | h
        · simp [leaves] at hl2
        · exact h
      obtain ⟨fn, hfn⟩ := Option.ne_none_iff_exists'.1 (hw.2.1 f (List.mem_of_getElem? hf))
      obtain ⟨gn, hgn⟩ := Option.ne_none_iff_exists'.1 (hw.2.1 g (List.mem_of_getElem? hg))
      have hwf := wellNamedAll_mem hw.2.2.2 f (List.mem_of_getElem? hf)
      have hwg := wellNamedAll_mem hw.2.2.2 g (List.mem_of_getElem? hg)
      have hcomp := pairwise_get (fun _ _ => compatible_symm) hw.2.2.1 hf hg hij
      have h1 := rel_owned hwf hcf _ (pair_mem_rel (sep := sep) hl1)
      have h2 := rel_key_container hwg hcg hgn _ (pair_mem_rel (sep := sep) hl2)
      simp only [LeafAt.pair] at h1 h2
      rw [← heq] at h2
      exact not_owned_of_sibling hfn hgn hcomp (goodName_of_wellNamed hwg gn hgn).2 h2 h1
  | .list h prune max m, .list n ks, hw, hc => by
    intro l1 h1 l2 h2 heq
    simp only [Conforms, WellNamed] at hc hw
    simp only [leaves, List.mem_map] at h1 h2
    obtain ⟨a, ha, rfl⟩ := h1
    obtain ⟨b, hb, rfl⟩ := h2
    obtain ⟨i, k1, l1, hk1, hl1, rfl⟩ := mem_leavesSlots.1 ha
    obtain ⟨j, k2, l2, hk2, hl2, rfl⟩ := mem_leavesSlots.1 hb
    have hc1 := hc.2 k1 (List.mem_of_getElem? hk1)
    have hc2 := hc.2 k2 (List.mem_of_getElem? hk2)
    simp only [keyOf_cons, Nat.zero_add] at heq
    rw [hc.1] at heq
    obtain ⟨rfl, heq'⟩ := canonical_inj hs hw.1 (leaf_key_ne_nil hw.2 hc1 hl1) (leaf_key_ne_nil hw.2 hc2 hl2) heq
    rw [hk1] at hk2
    simp only [Option.some.injEq] at hk2
    subst hk2
    simp only [Nat.zero_add]
    exact sameSpot_cons (by simp) hk1 (same_key hs m k1 hw.2 hc1 l1 hl1 l2 hl2 heq')
  | .array h prune m, .array n ks, hw, hc => by
    intro l1 h1 l2 h2 heq
    simp only [Conforms, WellNamed] at hc hw
    simp only [leaves, List.mem_map] at h1 h2
    obtain ⟨a, ha, rfl⟩ := h1
    obtain ⟨b, hb, rfl⟩ := h2
    obtain ⟨i, k1, l1, hk1, hl1, rfl⟩ := mem_leavesKids.1 ha
    obtain ⟨j, k2, l2, hk2, hl2, rfl⟩ := mem_leavesKids.1 hb
    have hc1 := hc.2 k1 (List.mem_of_getElem? hk1)
    have hc2 := hc.2 k2 (List.mem_of_getElem? hk2)
    cases m <;> simp [isContainer] at hw
    cases k1 <;> simp only [Conforms] at hc1
    cases k2 <;> simp only [Conforms] at hc2
    simp only [leaves, List.mem_singleton] at hl1 hl2
    subst hl1; subst hl2
    exact .inr ⟨[], 0 + i, 0 + j, n, ks, rfl, rfl, by simp [elemAt]⟩
  | .scalar .., .dict .., _, hc | .scalar .., .list .., _, hc | .scalar .., .array .., _, hc | .scalar .., .absent, _, hc
  | .dict .., .scalar .., _, hc | .dict .., .list .., _, hc | .dict .., .array .., _, hc | .dict .., .absent, _, hc
  | .list .., .dict .., _, hc | .list .., .scalar .., _, hc | .list .., .array .., _, hc | .list .., .absent, _, hc
  | .array .., .dict .., _, hc | .array .., .list .., _, hc | .array .., .scalar .., _, hc | .array .., .absent, _, hc => by
    simp [Conforms] at hc
theorem same_key_all {sep : PStr} (hs : GoodSep sep) : ∀ (fs : List Schema) (ks : List Elem) (mode : DictMode), WellNamedAll sep fs →
    ConformsAll mode fs ks → ∀ (i : Nat) k, ks[i]? = some k →
    ∀ l1 ∈ leaves k, ∀ l2 ∈ leaves k, keyOf sep l1.names = keyOf sep l2.names → SameSpot k l1.pos l2.pos
  | [], [], _, _, _ => by simp
  | f :: fs, k :: ks, mode, hw, hc => by
    intro i k' hk' l1 h1 l2 h2 heq
    simp only [WellNamedAll, ConformsAll] at hw hc
    cases i with
    | zero =>
      simp only [List.getElem?_cons_zero, Option.some.injEq] at hk'
      subst hk'
      rcases hc.1 with ⟨rfl, _⟩ | hcf
      · simp [leaves] at h1
      · exact same_key hs f k hw.1 hcf l1 h1 l2 h2 heq
    | succ i => exact same_key_all hs fs ks mode hw.2 hc.2 i k' (by simpa using hk') l1 h1 l2 h2 heq
  | [], _ :: _, _, _, hc | _ :: _, [], _, _, hc => by simp [ConformsAll] at hc
end

omit [Runtime] in
theorem sameSpot_length {e : Elem} {p q : Pos} (h : SameSpot e p q) : p.length = q.length := by
  rcases h with rfl | ⟨r, i, j, n, ks, rfl, rfl, _⟩
  · rfl
  · simp

omit [Runtime] in
/-- the text key of a leaf -/
theorem flatName_leaf {sep : PStr} {s : Schema} {e : Elem} (hk : Keyed s) (hw : WellNamed sep s) (hc : Conforms s e)
    {l : LeafAt} (h : l ∈ leaves e) : some (flatName sep l.names) = keyOf sep l.names := by
  rw [flatName_eq_keyOf]
  have hne : keyOf sep l.names ≠ none := by
    have hp := pair_mem_rel (sep := sep) h
    cases hn : s.name with
    | some n => rcases rel_key_under hw hc hn _ hp with h | ⟨y, _, h⟩ <;> simp only [LeafAt.pair] at h <;> simp [h]
    | none =>
      cases s <;> cases e <;> simp only [Conforms] at hc <;> simp only [Schema.name, Schema.hdr] at hn
      · simp only [Keyed] at hk; exact absurd hn hk
      · simp only [WellNamed] at hw
        rw [rel_dict] at hp
        simp only [List.mem_map] at hp
        obtain ⟨y, hy, hyp⟩ := hp
        have := relKids_key_some hw.2.1 hw.2.2.2 hc.2 y hy
        rw [hc.1, hn, addName_none] at hyp
        simp only [LeafAt.pair] at hyp
        rw [← (Prod.mk.inj hyp).1]; exact this
      · rw [rel_list] at hp
        simp only [List.mem_map] at hp
        obtain ⟨y, hy, hyp⟩ := hp
        have := relSlots_key_some y hy
        rw [hc.1, hn, addName_none] at hyp
        simp only [LeafAt.pair] at hyp
        rw [← (Prod.mk.inj hyp).1]; exact this
      · rename_i h prune m n ks
        rw [rel_array] at hp
        simp only [List.mem_map, relKids, List.mem_flatMap] at hp
        obtain ⟨y, ⟨k, hkm, hy⟩, hyp⟩ := hp
        simp only [WellNamed] at hw
        simp only [Keyed, hn] at hk
        obtain ⟨cn, hcn⟩ := Option.ne_none_iff_exists'.1 (hk.resolve_left (by simp))
        rw [hc.1, hn, addName_none] at hyp
        simp only [LeafAt.pair] at hyp
        rw [← (Prod.mk.inj hyp).1]
        rcases rel_key_under hw.2.2 (hc.2 k hkm) hcn y hy with h | ⟨z, _, h⟩ <;> simp [h]
  obtain ⟨k, hk⟩ := Option.ne_none_iff_exists'.1 hne
  simp [hk]

/-- per key, `flatten` lists the leaves in document order -/
theorem flatten_agree {sep : PStr} (hs : GoodSep sep) {s : Schema} {e : Elem} (hk : Keyed s) (hw : WellNamed sep s)
    (hc : Conforms s e) :
    Agree (fun _ => True) ((flatten sep e).map fun p => (some p.1, p.2)) (rel sep false e) := by
  intro key _
  rw [flatten_levels sep e e.size (Nat.le_refl _), List.map_flatMap]
  have h1 : ((List.range e.size).flatMap fun d =>
      (((leaves e).filter fun l => l.pos.length == d).map fun l => (flatName sep l.names, l.st.u)).map fun p => ((some p.1, p.2) : FPair)) =
      ((List.range e.size).flatMap fun d => (leaves e).filter fun l => l.pos.length == d).map (LeafAt.pair sep) := by
    rw [List.map_flatMap]
    congr 1
    funext d
    rw [List.map_map]
    apply List.map_congr_left
    intro l hl
    simp only [Function.comp, LeafAt.pair]
    rw [flatName_leaf hk hw hc (List.mem_filter.1 hl).1]
  rw [h1]
  have h2 : rel sep false e = (leaves e).map (LeafAt.pair sep) := by
    rw [rel, List.filter_eq_self.2]
    simp [dropped]
  rw [h2, List.filter_map, List.filter_map]
  congr 1
  by_cases hex : ∃ l ∈ leaves e, keyOf sep l.names = key
  · obtain ⟨l, hl, hkey⟩ := hex
    apply filter_by_level (leaves e) (fun l => l.pos.length) e.size l.pos.length
    · exact leaves_depth e
    · intro l' hl' hq
      simp only [Function.comp, LeafAt.pair, beq_iff_eq] at hq
      exact sameSpot_length (same_key hs s e hw hc l' hl' l hl (by rw [hq, hkey]))
  · apply filter_by_level (leaves e) (fun l => l.pos.length) e.size 0
    · exact leaves_depth e
    · intro l' hl' hq
      simp only [Function.comp, LeafAt.pair, beq_iff_eq] at hq
      exact absurd ⟨l', hl', hq⟩ hex

end Flatland
