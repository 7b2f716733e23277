import Verif.Spec.Mappings
/-! Lemmas about mappings. -/
namespace Flatland
open Flatland.Spec

variable {K V E A : Type} [DecidableEq K]

/-! ### Python dicts -/

theorem dictGet_isSome {d : PyDict K E} {k : K} : (dictGet d k).isSome ↔ k ∈ dictKeys d := by
  induction d with
  | nil => simp [dictGet, dictKeys]
  | cons p d ih =>
    obtain ⟨k', e⟩ := p
    simp only [dictGet, dictKeys, List.map_cons, List.mem_cons] at ih ⊢
    split
    · rename_i h; simp [h]
    · rename_i h; rw [ih]; simp [show k ≠ k' from fun h' => h h'.symm]

theorem dictGet_none {d : PyDict K E} {k : K} : dictGet d k = none ↔ k ∉ dictKeys d := by
  rw [← dictGet_isSome]; cases dictGet d k <;> simp

theorem dictGet_put (d : PyDict K E) (k k' : K) (e : E) : dictGet (dictPut d k e) k' = if k' = k then some e else dictGet d k' := by
  induction d with
  | nil =>
    simp only [dictPut, dictGet]
    by_cases h : k = k'
    · simp [h]
    · simp [h, show k' ≠ k from fun h' => h h'.symm]
  | cons p d ih =>
    obtain ⟨k0, e0⟩ := p
    simp only [dictPut]
    split
    · rename_i h
      subst h
      simp only [dictGet]
      by_cases h : k0 = k'
      · simp [h]
      · simp [h, show k' ≠ k0 from fun h' => h h'.symm]
    · rename_i h
      simp only [dictGet, ih]
      by_cases h1 : k0 = k'
      · subst h1; simp [h]
      · simp [h1]

theorem dictKeys_put (d : PyDict K E) (k : K) (e : E) :
    dictKeys (dictPut d k e) = if k ∈ dictKeys d then dictKeys d else dictKeys d ++ [k] := by
  induction d with
  | nil => simp [dictPut, dictKeys]
  | cons p d ih =>
    obtain ⟨k0, e0⟩ := p
    simp only [dictPut, dictKeys, List.map_cons, List.mem_cons] at ih ⊢
    split
    · rename_i h; simp [h]
    · rename_i h
      simp only [List.map_cons, ih]
      have : k ≠ k0 := fun h' => h h'.symm
      by_cases hm : k ∈ List.map Prod.fst d <;> simp [this, hm]

theorem dictKeys_put_mem {d : PyDict K E} {k : K} (e : E) (h : k ∈ dictKeys d) : dictKeys (dictPut d k e) = dictKeys d := by
  rw [dictKeys_put, if_pos h]

theorem mem_dictKeys_put {d : PyDict K E} {k k' : K} {e : E} : k' ∈ dictKeys (dictPut d k e) ↔ k' ∈ dictKeys d ∨ k' = k := by
  rw [dictKeys_put]
  split
  · rename_i h
    constructor
    · exact .inl
    · rintro (h' | rfl)
      · exact h'
      · exact h
  · simp

theorem nodup_dictKeys_put {d : PyDict K E} (h : (dictKeys d).Nodup) (k : K) (e : E) : (dictKeys (dictPut d k e)).Nodup := by
  rw [dictKeys_put]
  split
  · exact h
  · rename_i hk
    rw [List.nodup_append]
    refine ⟨h, by simp, ?_⟩
    intro a ha b hb
    simp at hb
    subst hb
    rintro rfl
    exact hk ha

theorem mem_dictKeys_del {d : PyDict K E} {k k' : K} (h : k' ∈ dictKeys (dictDel d k)) : k' ∈ dictKeys d := by
  induction d with
  | nil => exact h
  | cons p d ih =>
    obtain ⟨k0, e0⟩ := p
    simp only [dictDel] at h
    simp only [dictKeys, List.map_cons, List.mem_cons] at ih ⊢
    split at h
    · exact .inr h
    · simp only [dictKeys, List.map_cons, List.mem_cons] at h
      rcases h with h | h
      · exact .inl h
      · exact .inr (ih h)

theorem mem_dictKeys_del_ne {d : PyDict K E} {k k' : K} (h : k' ∈ dictKeys d) (hne : k' ≠ k) : k' ∈ dictKeys (dictDel d k) := by
  induction d with
  | nil => exact h
  | cons p d ih =>
    obtain ⟨k0, e0⟩ := p
    simp only [dictDel]
    simp only [dictKeys, List.map_cons, List.mem_cons] at ih h
    split
    · rename_i hk
      rcases h with h | h
      · exact absurd (h.trans hk) hne
      · exact h
    · simp only [dictKeys, List.map_cons, List.mem_cons]
      rcases h with h | h
      · exact .inl h
      · exact .inr (ih h)

theorem nodup_dictKeys_del {d : PyDict K E} (h : (dictKeys d).Nodup) (k : K) : (dictKeys (dictDel d k)).Nodup := by
  induction d with
  | nil => exact h
  | cons p d ih =>
    obtain ⟨k0, e0⟩ := p
    simp only [dictKeys, List.map_cons, List.nodup_cons] at h
    simp only [dictDel]
    split
    · exact h.2
    · simp only [dictKeys, List.map_cons, List.nodup_cons]
      exact ⟨fun hm => h.1 (mem_dictKeys_del hm), ih h.2⟩

theorem dictGet_del (d : PyDict K E) (k k' : K) (hn : (dictKeys d).Nodup) :
    dictGet (dictDel d k) k' = if k' = k then none else dictGet d k' := by
  induction d with
  | nil => simp [dictDel, dictGet]
  | cons p d ih =>
    obtain ⟨k0, e0⟩ := p
    simp only [dictKeys, List.map_cons, List.nodup_cons] at hn
    simp only [dictDel]
    split
    · rename_i h
      subst h
      by_cases h' : k' = k0
      · subst h'
        rw [if_pos rfl]
        exact dictGet_none.2 hn.1
      · rw [if_neg h', dictGet, if_neg fun h'' => h' h''.symm]
    · rename_i h
      simp only [dictGet, ih hn.2]
      by_cases h' : k0 = k'
      · subst h'; simp [h]
      · simp [h']

/-! ### fields -/

theorem fieldFor_some {c : MapClass K V E} {k : K} {f : Field K V E} (h : fieldFor c k = some f) : f ∈ c.fields ∧ f.name = k := by
  unfold fieldFor at h
  have h1 := List.mem_of_find?_eq_some h
  have h2 := List.find?_some h
  exact ⟨h1, by simpa using h2⟩

theorem fieldFor_none {c : MapClass K V E} {k : K} : fieldFor c k = none ↔ k ∉ names c := by
  unfold fieldFor names
  rw [List.find?_eq_none]
  simp

theorem fieldFor_mem {c : MapClass K V E} {k : K} (h : k ∈ names c) : ∃ f, fieldFor c k = some f := by
  cases hf : fieldFor c k with
  | none => exact absurd h (fieldFor_none.1 hf)
  | some f => exact ⟨f, rfl⟩

omit [DecidableEq K] in
theorem field_unique {c : MapClass K V E} (hn : (names c).Nodup) {f g : Field K V E} (hf : f ∈ c.fields) (hg : g ∈ c.fields)
    (h : f.name = g.name) : f = g := by
  unfold names at hn
  generalize c.fields = l at hn hf hg
  induction l with
  | nil => cases hf
  | cons x xs ih =>
    simp only [List.map_cons, List.nodup_cons] at hn
    rcases List.mem_cons.1 hf with e1 | hf <;> rcases List.mem_cons.1 hg with e2 | hg
    · rw [e1, e2]
    · exact absurd (List.mem_map.2 ⟨g, hg, by rw [← h, e1]⟩) hn.1
    · exact absurd (List.mem_map.2 ⟨f, hf, by rw [h, e2]⟩) hn.1
    · exact ih hn.2 hf hg

/-! ### reset -/

theorem resetLoop_keys_full (fs : List (Field K V E)) (d : PyDict K E) (h : ∀ f ∈ fs, f.name ∈ dictKeys d) :
    dictKeys (resetLoop .full fs d) = dictKeys d := by
  induction fs generalizing d with
  | nil => rfl
  | cons f fs ih =>
    simp only [resetLoop, autoIn, if_true]
    rw [ih]
    · exact dictKeys_put_mem _ (h f (by simp))
    · intro g hg
      rw [mem_dictKeys_put]; exact .inl (h g (by simp [hg]))

theorem resetLoop_keys_new (fs : List (Field K V E)) (d : PyDict K E) (hn : (fs.map Field.name).Nodup)
    (h : ∀ f ∈ fs, f.name ∉ dictKeys d) : dictKeys (resetLoop .full fs d) = dictKeys d ++ fs.map Field.name := by
  induction fs generalizing d with
  | nil => simp [resetLoop]
  | cons f fs ih =>
    simp only [List.map_cons, List.nodup_cons] at hn
    simp only [resetLoop, autoIn, if_true]
    have hf := h f (by simp)
    rw [ih _ hn.2, dictKeys_put, if_neg hf]
    · simp
    · intro g hg
      rw [mem_dictKeys_put]
      rintro (h' | h')
      · exact h g (by simp [hg]) h'
      · exact hn.1 (List.mem_map.2 ⟨g, hg, h'⟩)

theorem resetLoop_get (m : MapMode) (fs : List (Field K V E)) (d : PyDict K E) (hn : (fs.map Field.name).Nodup) (k : K) :
    dictGet (resetLoop m fs d) k = match fs.find? (fun f => f.name = k ∧ autoIn m f) with
      | some f => some f.cls.blank
      | none => dictGet d k := by
  induction fs generalizing d with
  | nil => rfl
  | cons f fs ih =>
    simp only [List.map_cons, List.nodup_cons] at hn
    simp only [resetLoop]
    rw [ih _ hn.2, List.find?_cons]
    by_cases hk : f.name = k
    · have hnone : fs.find? (fun f => f.name = k ∧ autoIn m f) = none := by
        rw [List.find?_eq_none]
        intro g hg
        have : g.name ≠ k := fun h => hn.1 (List.mem_map.2 ⟨g, hg, h.trans hk.symm⟩)
        simp [this]
      rw [hnone]
      by_cases ha : autoIn m f = true
      · simp [hk, ha, dictGet_put]
      · simp [hk, ha]
    · by_cases ha : autoIn m f = true
      · simp only [ha, if_true, hk, false_and, decide_false]
        rw [dictGet_put, if_neg fun h => hk h.symm]
      · simp [hk, ha]

theorem resetLoop_mem (m : MapMode) (fs : List (Field K V E)) (d : PyDict K E) (k : K) :
    k ∈ dictKeys (resetLoop m fs d) ↔ k ∈ dictKeys d ∨ ∃ f ∈ fs, f.name = k ∧ autoIn m f = true := by
  induction fs generalizing d with
  | nil => simp [resetLoop]
  | cons f fs ih =>
    simp only [resetLoop]
    rw [ih]
    by_cases ha : autoIn m f = true
    · simp only [ha, if_true, mem_dictKeys_put, List.mem_cons, exists_eq_or_imp]
      constructor
      · rintro ((h | h) | h)
        · exact .inl h
        · exact .inr (.inl ⟨h.symm, trivial⟩)
        · exact .inr (.inr h)
      · rintro (h | ⟨h, _⟩ | h)
        · exact .inl (.inl h)
        · exact .inl (.inr h.symm)
        · exact .inr h
    · simp [ha]

theorem resetLoop_nodup (m : MapMode) (fs : List (Field K V E)) (d : PyDict K E) (h : (dictKeys d).Nodup) :
    (dictKeys (resetLoop m fs d)).Nodup := by
  induction fs generalizing d with
  | nil => exact h
  | cons f fs ih =>
    simp only [resetLoop]
    apply ih
    split
    · exact nodup_dictKeys_put h _ _
    · exact h

/-! ### Dict: the keys stay -/

/-- what the keys of a Dict are -/
def FullKeys (c : MapClass K V E) (d : PyDict K E) : Prop := dictKeys d = names c

theorem fullKeys_put {c : MapClass K V E} {d : PyDict K E} (h : FullKeys c d) {k : K} (hk : k ∈ names c) (e : E) :
    FullKeys c (dictPut d k e) := by
  unfold FullKeys at *
  rw [dictKeys_put_mem]
  · exact h
  · rw [h]; exact hk

theorem fullKeys_reset {c : MapClass K V E} (hm : c.mode = .full) {d : PyDict K E} (h : FullKeys c d) : FullKeys c (mapReset c d) := by
  unfold FullKeys mapReset at *
  rw [hm]
  simp only
  rw [resetLoop_keys_full]
  · exact h
  · intro f hf; rw [h]; exact List.mem_map.2 ⟨f, hf, rfl⟩

theorem fullKeys_new {c : MapClass K V E} (hm : c.mode = .full) (hn : (names c).Nodup) : FullKeys c (mapNew c) := by
  unfold FullKeys mapNew mapReset
  rw [hm]
  simp only
  rw [resetLoop_keys_new _ _ hn (by simp [dictKeys])]
  simp [dictKeys, names]

theorem fullKeys_setItem {c : MapClass K V E} (hm : c.mode = .full) {d : PyDict K E} (h : FullKeys c d) (k : K) (a : Arg V E) :
    FullKeys c (mapSetItem c d k a).1 := by
  unfold mapSetItem
  rw [hm]
  cases hf : fieldFor c k with
  | none => exact h
  | some f =>
    cases he : dictGet d k with
    | none => exact h
    | some e => exact fullKeys_put h (h ▸ dictGet_isSome.1 (by rw [he]; rfl)) _

theorem fullKeys_updateLoop {c : MapClass K V E} (hm : c.mode = .full) (items : List (K × Arg V E)) {d : PyDict K E}
    (h : FullKeys c d) : FullKeys c (updateLoop c d items).1 := by
  induction items generalizing d with
  | nil => exact h
  | cons p items ih =>
    obtain ⟨k, a⟩ := p
    unfold updateLoop
    have := fullKeys_setItem hm h k a
    split <;> rename_i heq <;> rw [heq] at this
    · exact ih this
    · exact this

theorem fullKeys_setLoop {c : MapClass K V E} (pol : MapPolicy) (items : List (K × Arg V E)) {d : PyDict K E} (seen : List K)
    (conv : Bool) (h : FullKeys c d) : FullKeys c (setLoop c pol d seen conv items).1 := by
  induction items generalizing d seen conv with
  | nil => exact h
  | cons p items ih =>
    obtain ⟨k, a⟩ := p
    unfold setLoop
    split
    · split
      · exact ih _ _ h
      · exact h
    · rename_i f hf
      have hk : k ∈ names c := by
        obtain ⟨h1, h2⟩ := fieldFor_some hf
        exact List.mem_map.2 ⟨f, h1, h2⟩
      simp only [setChild]
      split
      · rename_i heq; simp at heq; rw [← heq.1]; exact fullKeys_put h hk _
      · rename_i heq; simp at heq; rw [← heq.1]; exact ih _ _ (fullKeys_put h hk _)

theorem fullKeys_set {c : MapClass K V E} (hm : c.mode = .full) {d : PyDict K E} (h : FullKeys c d) (p : Pairs K V E) (pol : MapPolicy) :
    FullKeys c (mapSet c d p pol).1 := by
  cases p with
  | refused er => exact h
  | seq items fails =>
    have := fullKeys_setLoop pol items [] true (fullKeys_reset hm h)
    simp only [mapSet]
    split <;> rename_i heq <;> rw [heq] at this
    · exact this
    · repeat' split
      all_goals exact this

theorem fullKeys_flatLoop {c : MapClass K V E} (eff : K → FlatEffect E) (fs : List (Field K V E)) (hfs : ∀ f ∈ fs, f ∈ c.fields)
    {d : PyDict K E} (h : FullKeys c d) : FullKeys c (flatLoop eff fs d).1 := by
  induction fs generalizing d with
  | nil => exact h
  | cons f fs ih =>
    have ih := fun {d} => @ih (fun g hg => hfs g (by simp [hg])) d
    have hk : f.name ∈ names c := List.mem_map.2 ⟨f, hfs f (by simp), rfl⟩
    unfold flatLoop
    split
    · exact ih h
    · exact h
    · split
      · exact ih (fullKeys_put h hk _)
      · exact fullKeys_put h hk _

theorem defaultChildren_keys (c : MapClass K V E) (d : PyDict K E) : dictKeys (defaultChildren c d).1 = dictKeys d := by
  induction d with
  | nil => rfl
  | cons p d ih =>
    obtain ⟨k, e⟩ := p
    unfold defaultChildren
    split
    · rfl
    · split
      · rfl
      · simp only [dictKeys, List.map_cons] at ih ⊢; rw [ih]

theorem fullKeys_step {c : MapClass K V E} (hm : c.mode = .full) {d : PyDict K E} (h : FullKeys c d) (op : MapOp K V E) :
    FullKeys c (mapStep c d op) := by
  cases op with
  | setItem k a => exact fullKeys_setItem hm h k a
  | delItem k => simp only [mapStep, mapDelItem, hm]; split <;> exact h
  | clear => simp only [mapStep, mapClear, hm]; exact h
  | popitem => simp only [mapStep, mapPopitem, hm]; exact h
  | pop k => simp only [mapStep, mapPop, hm]; split <;> exact h
  | update p kw =>
    cases p with
    | refused er => exact h
    | seq items fails =>
      have := fullKeys_updateLoop hm items h
      simp only [mapStep, mapUpdate]
      split <;> rename_i heq <;> rw [heq] at this
      · exact this
      · split
        · exact this
        · exact fullKeys_updateLoop hm kw this
  | setdefault k a => simp only [mapStep, mapSetdefault, hm]; exact h
  | set p pol => exact fullKeys_set hm h p pol
  | setFlat eff => exact fullKeys_flatLoop eff c.fields (fun _ hf => hf) h
  | setDefault =>
    simp only [mapStep, mapSetDefault]
    split
    · exact fullKeys_set hm h _ _
    · simp only [hm]
      unfold FullKeys
      rw [defaultChildren_keys]; exact h

/-! ### SparseDict: what holds -/

/-- the keys are distinct field names, required ones are there, and every child has its field's `optional` -/
structure SparseInv (c : MapClass K V E) (opt : Bool) (d : PyDict K E) : Prop where
  nodup : (dictKeys d).Nodup
  within : ∀ k ∈ dictKeys d, k ∈ names c
  needed : opt = true → c.mode = .required → ∀ f ∈ c.fields, f.optional = false → f.name ∈ dictKeys d
  optional : opt = true → ∀ f ∈ c.fields, ∀ e, dictGet d f.name = some e → f.optionalOf e = f.optional

theorem sparse_put {c : MapClass K V E} {opt : Bool} {d : PyDict K E} (hn : (names c).Nodup) (h : SparseInv c opt d) {f : Field K V E}
    (hf : f ∈ c.fields) {e : E} (he : opt = true → f.optionalOf e = f.optional) : SparseInv c opt (dictPut d f.name e) where
  nodup := nodup_dictKeys_put h.nodup _ _
  within k hk := by
    rcases mem_dictKeys_put.1 hk with hk | rfl
    · exact h.within k hk
    · exact List.mem_map.2 ⟨f, hf, rfl⟩
  needed ho hm g hg hgo := mem_dictKeys_put.2 (.inl (h.needed ho hm g hg hgo))
  optional ho g hg e' he' := by
    rw [dictGet_put] at he'
    split at he'
    · rename_i hname
      have := field_unique hn hg hf hname
      subst this
      cases he'
      exact he ho
    · exact h.optional ho g hg e' he'

theorem sparse_del {c : MapClass K V E} {opt : Bool} {d : PyDict K E} (h : SparseInv c opt d) {k : K}
    (hk : opt = true → c.mode = .required → ∀ f ∈ c.fields, f.name = k → f.optional = true) : SparseInv c opt (dictDel d k) where
  nodup := nodup_dictKeys_del h.nodup _
  within k hk := h.within k (mem_dictKeys_del hk)
  needed ho hm g hg hgo := by
    apply mem_dictKeys_del_ne (h.needed ho hm g hg hgo)
    intro hname
    have := hk ho hm g hg hname
    rw [hgo] at this; cases this
  optional ho g hg e' he' := by
    rw [dictGet_del _ _ _ h.nodup] at he'
    split at he'
    · cases he'
    · exact h.optional ho g hg e' he'

theorem sparse_reset {c : MapClass K V E} {opt : Bool} (hm : c.mode ≠ .full) (hn : (names c).Nodup)
    (ho : opt = true → ∀ f ∈ c.fields, OptionalFixed f) (d : PyDict K E) : SparseInv c opt (mapReset c d) := by
  have hr : mapReset c d = resetLoop c.mode c.fields [] := by
    unfold mapReset; split
    · rename_i h; exact absurd h hm
    · rfl
  rw [hr]
  refine ⟨resetLoop_nodup _ _ _ (by simp [dictKeys]), ?_, ?_, ?_⟩
  · intro k hk
    rcases (resetLoop_mem _ _ _ _).1 hk with h | ⟨f, hf, rfl, _⟩
    · simp [dictKeys] at h
    · exact List.mem_map.2 ⟨f, hf, rfl⟩
  · intro _ hmr f hf hfo
    rw [resetLoop_mem]
    exact .inr ⟨f, hf, rfl, by simp [autoIn, hmr, hfo]⟩
  · intro hopt f hf e he
    rw [resetLoop_get _ _ _ hn] at he
    split at he
    · rename_i g hg
      have h1 := List.mem_of_find?_eq_some hg
      have h2 := List.find?_some hg
      simp at h2
      have := field_unique hn h1 hf h2.1
      subst this
      cases he
      exact (ho hopt g h1).blank
    · simp [dictGet] at he

theorem sparse_setChild {c : MapClass K V E} {opt : Bool} (hn : (names c).Nodup)
    (ho : opt = true → ∀ f ∈ c.fields, OptionalFixed f) {d : PyDict K E} (h : SparseInv c opt d) {f : Field K V E} (hf : f ∈ c.fields)
    {e : E} (he : opt = true → f.optionalOf e = f.optional) (a : Arg V E) : SparseInv c opt (setChild d f.name f e a).1 := by
  simp only [setChild]
  exact sparse_put hn h hf fun hopt => by rw [(ho hopt f hf).set, he hopt]

theorem sparse_setItem {c : MapClass K V E} {opt : Bool} (hm : c.mode ≠ .full) (hn : (names c).Nodup)
    (ho : opt = true → ∀ f ∈ c.fields, OptionalFixed f) {d : PyDict K E} (h : SparseInv c opt d) (k : K) (a : Arg V E)
    (ha : opt = true → SameOptional c k a) : SparseInv c opt (mapSetItem c d k a).1 := by
  unfold mapSetItem
  split
  · rename_i hc _ _; exact absurd hc hm
  · rename_i hc; exact h
  · exact h
  · rename_i f hf _ _
    obtain ⟨h1, rfl⟩ := fieldFor_some hf
    split
    · split
      · rename_i x hi
        exact sparse_put hn h h1 fun hopt => ha hopt f h1 rfl hi
      · split
        · rename_i x _ _ e r heq
          refine sparse_put hn h h1 fun hopt => ?_
          have := (ho hopt f h1).set f.cls.blank (.el x)
          rw [heq, (ho hopt f h1).blank] at this
          exact this
        · exact h
    · split
      · rename_i heq
        exact sparse_put hn h h1 fun hopt => (ho hopt f h1).make _ _ heq
      · exact h
  · rename_i f e hf he _
    obtain ⟨h1, rfl⟩ := fieldFor_some hf
    have hoe : opt = true → f.optionalOf e = f.optional := fun hopt => h.optional hopt f h1 e he
    split
    · split
      · rename_i x hi
        exact sparse_put hn h h1 fun hopt => ha hopt f h1 rfl hi
      · exact sparse_setChild hn ho h h1 hoe _
    · exact sparse_setChild hn ho h h1 hoe _

theorem sparse_updateLoop {c : MapClass K V E} {opt : Bool} (hm : c.mode ≠ .full) (hn : (names c).Nodup)
    (ho : opt = true → ∀ f ∈ c.fields, OptionalFixed f) (items : List (K × Arg V E)) (hi : opt = true → ∀ p ∈ items, SameOptional c p.1 p.2)
    {d : PyDict K E} (h : SparseInv c opt d) : SparseInv c opt (updateLoop c d items).1 := by
  induction items generalizing d with
  | nil => exact h
  | cons p items ih =>
    obtain ⟨k, a⟩ := p
    unfold updateLoop
    have := sparse_setItem hm hn ho h k a fun hopt => hi hopt (k, a) (by simp)
    split <;> rename_i heq <;> rw [heq] at this
    · exact ih (fun hopt p hp => hi hopt p (by simp [hp])) this
    · exact this

theorem sparse_setLoop {c : MapClass K V E} {opt : Bool} (hn : (names c).Nodup)
    (ho : opt = true → ∀ f ∈ c.fields, OptionalFixed f) (pol : MapPolicy) (items : List (K × Arg V E)) {d : PyDict K E} (seen : List K)
    (conv : Bool) (h : SparseInv c opt d) : SparseInv c opt (setLoop c pol d seen conv items).1 := by
  induction items generalizing d seen conv with
  | nil => exact h
  | cons p items ih =>
    obtain ⟨k, a⟩ := p
    unfold setLoop
    split
    · split
      · exact ih _ _ h
      · exact h
    · rename_i f hf
      obtain ⟨h1, rfl⟩ := fieldFor_some hf
      have hoe : opt = true → f.optionalOf ((dictGet d f.name).getD f.cls.blank) = f.optional := by
        intro hopt
        cases hg : dictGet d f.name with
        | none => exact (ho hopt f h1).blank
        | some e => exact h.optional hopt f h1 e hg
      have := sparse_setChild hn ho h h1 hoe a
      simp only
      cases heq : setChild d f.name f ((dictGet d f.name).getD f.cls.blank) a with
      | mk d' r =>
        rw [heq] at this
        cases r with
        | error er => exact this
        | ok b => exact ih _ _ this

theorem sparse_set {c : MapClass K V E} {opt : Bool} (hm : c.mode ≠ .full) (hn : (names c).Nodup)
    (ho : opt = true → ∀ f ∈ c.fields, OptionalFixed f) {d : PyDict K E} (h : SparseInv c opt d) (p : Pairs K V E) (pol : MapPolicy) :
    SparseInv c opt (mapSet c d p pol).1 := by
  cases p with
  | refused er => exact h
  | seq items fails =>
    have := sparse_setLoop hn ho pol items [] true (sparse_reset hm hn ho d)
    simp only [mapSet]
    split <;> rename_i heq <;> rw [heq] at this
    · exact this
    · repeat' split
      all_goals exact this

theorem sparse_flatLoop {c : MapClass K V E} {opt : Bool} (hn : (names c).Nodup)
    (ho : opt = true → ∀ f ∈ c.fields, OptionalFixed f) (eff : K → FlatEffect E)
    (he : opt = true → ∀ f ∈ c.fields, ∀ g, eff f.name = .apply g → ∀ e, f.optionalOf (g e).1 = f.optionalOf e)
    (fs : List (Field K V E)) (hfs : ∀ f ∈ fs, f ∈ c.fields)
    {d : PyDict K E} (h : SparseInv c opt d) : SparseInv c opt (flatLoop eff fs d).1 := by
  induction fs generalizing d with
  | nil => exact h
  | cons f fs ih =>
    have ih := fun {d} => @ih (fun g hg => hfs g (by simp [hg])) d
    have h1 := hfs f (by simp)
    have hoe : opt = true → f.optionalOf ((dictGet d f.name).getD f.cls.blank) = f.optional := by
      intro hopt
      cases hg : dictGet d f.name with
      | none => exact (ho hopt f h1).blank
      | some e => exact h.optional hopt f h1 e hg
    unfold flatLoop
    split
    · exact ih h
    · exact h
    · rename_i g hg
      have hput : SparseInv c opt (dictPut d f.name (g ((dictGet d f.name).getD f.cls.blank)).1) :=
        sparse_put hn h h1 fun hopt => by rw [he hopt f h1 g hg, hoe hopt]
      split <;> rename_i heq <;> rw [heq] at hput
      · exact ih hput
      · exact hput

theorem sparse_defaultRequired {c : MapClass K V E} {opt : Bool} (hn : (names c).Nodup)
    (ho : opt = true → ∀ f ∈ c.fields, OptionalFixed f) (fs : List (Field K V E)) (hfs : ∀ f ∈ fs, f ∈ c.fields)
    {d : PyDict K E} (h : SparseInv c opt d) : SparseInv c opt (defaultRequired fs d).1 := by
  induction fs generalizing d with
  | nil => exact h
  | cons f fs ih =>
    have ih := fun {d} => @ih (fun g hg => hfs g (by simp [hg])) d
    have h1 := hfs f (by simp)
    unfold defaultRequired
    split
    · exact ih h
    · split
      · exact h
      · rename_i heq
        exact ih (sparse_put hn h h1 fun hopt => (ho hopt f h1).fromDefaults _ heq)

theorem sparse_step {c : MapClass K V E} {opt : Bool} (hm : c.mode ≠ .full) (hn : (names c).Nodup)
    (ho : opt = true → ∀ f ∈ c.fields, OptionalFixed f) {d : PyDict K E} (h : SparseInv c opt d) (op : MapOp K V E)
    (hop : opt = true → KeepsOptional c op) : SparseInv c opt (mapStep c d op) := by
  cases op with
  | setItem k a => exact sparse_setItem hm hn ho h k a hop
  | delItem k =>
    simp only [mapStep, mapDelItem]
    split
    · rename_i hc; exact absurd hc hm
    · rename_i hc
      split
      · exact sparse_del h fun _ hr => by rw [hc] at hr; cases hr
      · split <;> exact h
    · split
      · rename_i e f he hf
        split
        · rename_i hoe
          obtain ⟨h1, rfl⟩ := fieldFor_some hf
          refine sparse_del h fun hopt _ g hg hname => ?_
          have := field_unique hn hg h1 hname
          subst this
          rw [← h.optional hopt g hg e he, hoe]
        · exact h
      · exact h
      · exact h
      · split <;> exact h
  | clear =>
    simp only [mapStep, mapClear]
    first
      | exact sparse_reset hm hn ho d
      | (split
         · exact h
         · exact sparse_reset hm hn ho d)
  | popitem => simp only [mapStep, mapPopitem]; first | exact h | (split <;> exact h)
  | pop k =>
    simp only [mapStep, mapPop]
    split
    · exact h
    · rename_i e he
      split
      · exact h
      · rename_i hc; exact sparse_del h fun _ hr => by rw [hc] at hr; cases hr
      · split
        · rename_i f hf
          split
          · rename_i hoe
            obtain ⟨h1, rfl⟩ := fieldFor_some hf
            refine sparse_del h fun hopt _ g hg hname => ?_
            have := field_unique hn hg h1 hname
            subst this
            rw [← h.optional hopt g hg e he, hoe]
          · exact h
        · exact h
  | update p kw =>
    cases p with
    | refused er => exact h
    | seq items fails =>
      have := sparse_updateLoop hm hn ho items (fun hopt => (hop hopt).1) h
      simp only [mapStep, mapUpdate]
      split <;> rename_i heq <;> rw [heq] at this
      · exact this
      · split
        · exact this
        · exact sparse_updateLoop hm hn ho kw (fun hopt => (hop hopt).2) this
  | setdefault k a =>
    simp only [mapStep, mapSetdefault]
    cases hmode : c.mode with
    | full => exact absurd hmode hm
    | _ =>
      cases hf : fieldFor c k with
      | none => exact h
      | some f =>
        obtain ⟨h1, rfl⟩ := fieldFor_some hf
        simp only
        split
        · rename_i e he
          split
          · exact sparse_setChild hn ho h h1 (fun hopt => h.optional hopt f h1 e he) a
          · exact h
        · exact sparse_setChild hn ho h h1 (fun hopt => (ho hopt f h1).blank) a
  | set p pol => exact sparse_set hm hn ho h p pol
  | setFlat eff => exact sparse_flatLoop hn ho eff hop c.fields (fun _ hf => hf) h
  | setDefault =>
    simp only [mapStep, mapSetDefault]
    split
    · exact sparse_set hm hn ho h _ _
    · split
      · rename_i hc; exact absurd hc hm
      · exact sparse_reset hm hn ho d
      · exact sparse_defaultRequired hn ho c.fields (fun _ hf => hf) (sparse_reset hm hn ho d)

/-! ### set -/

theorem setLoop_ok {c : MapClass K V E} (hn : (names c).Nodup) (pol : MapPolicy) (items : List (K × Arg V E)) (d : PyDict K E)
    (seen : List K) (conv : Bool) (out : Field K V E → E) (res : Field K V E → Bool)
    (hall : ∀ f ∈ c.fields, setAll f.cls ((dictGet d f.name).getD f.cls.blank) (valuesOf items f.name) = (out f, .ok (res f)))
    (hknown : pol ≠ .duck → ∀ p ∈ items, p.1 ∈ names c) :
    ∃ d' seen', setLoop c pol d seen conv items = (d', .ok (seen', conv && c.fields.all res)) ∧
      (∀ f ∈ c.fields, dictGet d' f.name =
        if (dictGet d f.name).isSome ∨ valuesOf items f.name ≠ [] then some (out f) else none) ∧
      (∀ k, k ∈ seen' ↔ k ∈ seen ∨ (k ∈ names c ∧ valuesOf items k ≠ [])) ∧
      (∀ k, k ∈ dictKeys d' → k ∈ dictKeys d ∨ k ∈ names c) := by
  induction items generalizing d seen conv out res with
  | nil =>
    refine ⟨d, seen, ?_, ?_, ?_, ?_⟩
    · have : c.fields.all res = true := by
        rw [List.all_eq_true]
        intro f hf
        have := hall f hf
        simp [valuesOf, setAll] at this
        first | exact this.2 | exact this.2.symm
      simp [setLoop, this]
    · intro f hf
      have := hall f hf
      simp only [valuesOf, List.filterMap_nil, setAll, Prod.mk.injEq] at this
      cases hd : dictGet d f.name with
      | none => simp [valuesOf]
      | some e => rw [hd] at this; simp at this; simp [this.1]
    · simp [valuesOf]
    · exact fun k hk => .inl hk
  | cons p items ih =>
    obtain ⟨k, a⟩ := p
    have hvo : ∀ k', valuesOf ((k, a) :: items) k' = if k = k' then a :: valuesOf items k' else valuesOf items k' := by
      intro k'
      simp only [valuesOf, List.filterMap_cons]
      split <;> rename_i h
      · split at h
        · cases h
        · rename_i hne; simp [hne]
      · split at h
        · cases h; rename_i he; simp [he]
        · cases h
    cases hf : fieldFor c k with
    | none =>
      have hk := fieldFor_none.1 hf
      have hduck : pol = .duck := by
        apply Classical.byContradiction
        intro hp
        exact hk (hknown hp (k, a) (by simp))
      have hne : ∀ k' ∈ names c, k ≠ k' := fun k' h' h'' => hk (h'' ▸ h')
      obtain ⟨d', seen', h1, h2, h3, h4⟩ := ih d seen conv out res
        (by
          intro f hfm
          have := hall f hfm
          rw [hvo, if_neg (hne f.name (List.mem_map.2 ⟨f, hfm, rfl⟩))] at this
          exact this)
        (by intro hp; exact absurd hduck hp)
      refine ⟨d', seen', ?_, ?_, ?_, h4⟩
      · rw [setLoop, hf]; simp only [hduck, if_true]; rw [← hduck]; exact h1
      · intro f hfm
        rw [h2 f hfm, hvo, if_neg (hne f.name (List.mem_map.2 ⟨f, hfm, rfl⟩))]
      · intro k'
        rw [h3]
        constructor
        · rintro (h | ⟨h, h'⟩)
          · exact .inl h
          · exact .inr ⟨h, by rw [hvo, if_neg (hne k' h)]; exact h'⟩
        · rintro (h | ⟨h, h'⟩)
          · exact .inl h
          · rw [hvo, if_neg (hne k' h)] at h'; exact .inr ⟨h, h'⟩
    | some f0 =>
      obtain ⟨hf0, rfl⟩ := fieldFor_some hf
      have h0 := hall f0 hf0
      rw [hvo, if_pos rfl, setAll] at h0
      cases hset : f0.cls.set ((dictGet d f0.name).getD f0.cls.blank) a with
      | mk e1 r1 =>
        rw [hset] at h0
        cases r1 with
        | error er => simp at h0
        | ok b =>
          simp only at h0
          cases hrest : setAll f0.cls e1 (valuesOf items f0.name) with
          | mk e2 r2 =>
            rw [hrest] at h0
            cases r2 with
            | error er => simp at h0
            | ok b2 =>
              simp at h0
              obtain ⟨ho1, ho2⟩ := h0
              let res1 : Field K V E → Bool := fun f => if f.name = f0.name then b2 else res f
              obtain ⟨d', seen', h1, h2, h3, h4⟩ := ih (dictPut d f0.name e1) (f0.name :: seen) (conv && b) out res1
                (by
                  intro f hfm
                  by_cases hname : f.name = f0.name
                  · have := field_unique hn hfm hf0 hname
                    subst this
                    simp only [res1, if_true, dictGet_put, Option.getD_some]
                    rw [hrest, ho1]
                  · have := hall f hfm
                    rw [hvo, if_neg fun h => hname h.symm] at this
                    simp only [res1, dictGet_put, if_neg hname]
                    exact this)
                (by intro hp p hpm; exact hknown hp p (by simp [hpm]))
              refine ⟨d', seen', ?_, ?_, ?_, ?_⟩
              · rw [setLoop, hf]
                simp only [setChild, hset]
                rw [h1]
                congr 3
                rw [Bool.and_assoc]
                congr 1
                rw [Bool.eq_iff_iff]
                simp only [Bool.and_eq_true, List.all_eq_true]
                constructor
                · rintro ⟨hb, hr⟩ f hfm
                  by_cases hname : f.name = f0.name
                  · have := field_unique hn hfm hf0 hname
                    subst this
                    have := hr f hfm
                    simp only [res1, if_true] at this
                    rw [← ho2, hb, this]; rfl
                  · have := hr f hfm
                    simp only [res1, if_neg hname] at this
                    exact this
                · intro hr
                  have := hr f0 hf0
                  rw [← ho2] at this
                  simp at this
                  refine ⟨this.1, fun f hfm => ?_⟩
                  by_cases hname : f.name = f0.name
                  · simp [res1, hname, this.2]
                  · simp only [res1, if_neg hname]; exact hr f hfm
              · intro f hfm
                rw [h2 f hfm, hvo, dictGet_put]
                by_cases hname : f.name = f0.name
                · simp [hname]
                · simp [hname, show f0.name ≠ f.name from fun h => hname h.symm]
              · intro k'
                rw [h3, hvo]
                by_cases hk' : f0.name = k'
                · subst hk'
                  simp [show f0.name ∈ names c from List.mem_map.2 ⟨f0, hf0, rfl⟩]
                · simp [hk', show k' ≠ f0.name from fun h => hk' h.symm]
              · intro k' hk'
                rcases h4 k' hk' with h | h
                · rcases mem_dictKeys_put.1 h with h | rfl
                  · exact .inl h
                  · exact .inr (List.mem_map.2 ⟨f0, hf0, rfl⟩)
                · exact .inr h

theorem mapReset_get {c : MapClass K V E} (hn : (names c).Nodup) (d : PyDict K E) {f : Field K V E} (hf : f ∈ c.fields) :
    dictGet (mapReset c d) f.name = if autoIn c.mode f then some f.cls.blank else none := by
  have key : ∀ d' : PyDict K E, (autoIn c.mode f = false → dictGet d' f.name = none) →
      dictGet (resetLoop c.mode c.fields d') f.name = if autoIn c.mode f then some f.cls.blank else none := by
    intro d' hd'
    rw [resetLoop_get _ _ _ hn]
    split
    · rename_i g hg
      have h1 := List.mem_of_find?_eq_some hg
      have h2 := List.find?_some hg
      simp at h2
      have := field_unique hn h1 hf h2.1
      subst this
      simp [h2.2]
    · rename_i hg
      rw [List.find?_eq_none] at hg
      have := hg f hf
      simp at this
      rw [hd' this, this]; rfl
  unfold mapReset
  split
  · rename_i hm
    exact key d (by rw [hm]; simp [autoIn])
  · exact key [] (by simp [dictGet])

theorem setLoop_unknown {c : MapClass K V E} (hr : ChildrenNeverRaise c) {pol : MapPolicy} (hp : pol ≠ .duck) (items : List (K × Arg V E))
    (h : ∃ p ∈ items, p.1 ∉ names c) (d : PyDict K E) (seen : List K) (conv : Bool) :
    (setLoop c pol d seen conv items).2 = .error .key := by
  induction items generalizing d seen conv with
  | nil => obtain ⟨p, hp', _⟩ := h; cases hp'
  | cons q items ih =>
    obtain ⟨k, a⟩ := q
    unfold setLoop
    split
    · simp [hp]
    · rename_i f hf
      obtain ⟨h1, rfl⟩ := fieldFor_some hf
      simp only [setChild]
      obtain ⟨b, hb⟩ := hr f h1 ((dictGet d f.name).getD f.cls.blank) a
      rw [hb]
      simp only
      apply ih
      obtain ⟨p, hp', hk⟩ := h
      rcases List.mem_cons.1 hp' with rfl | hp'
      · exact absurd (List.mem_map.2 ⟨f, h1, rfl⟩) hk
      · exact ⟨p, hp', hk⟩

theorem setAll_ok {c : MemberClass V E} (h : ∀ e a, ∃ b, (c.set e a).2 = .ok b) (e : E) (as : List (Arg V E)) :
    ∃ b, (setAll c e as).2 = .ok b := by
  induction as generalizing e with
  | nil => exact ⟨true, rfl⟩
  | cons a as ih =>
    obtain ⟨b, hb⟩ := h e a
    cases hs : c.set e a with
    | mk e' r =>
      rw [hs] at hb
      simp only at hb
      subst hb
      obtain ⟨b', hb'⟩ := ih e'
      cases hs' : setAll c e' as with
      | mk e'' r' =>
        rw [hs'] at hb'
        simp only at hb'
        subst hb'
        exact ⟨b && b', by simp [setAll, hs, hs']⟩

theorem eq_nil_or_snoc {A : Type} (l : List A) : l = [] ∨ ∃ l' x, l = l' ++ [x] := by
  rcases List.eq_nil_or_concat l with h | ⟨l', x, h⟩
  · exact .inl h
  · exact .inr ⟨l', x, by simpa using h⟩

/-! ### key selection -/

theorem keysliceLoop_emitted (s : Selection K) (ps : List (K × A)) : keysliceLoop s ps = ps.filterMap (emitted s) := by
  induction ps with
  | nil => rfl
  | cons p ps ih =>
    obtain ⟨k0, v⟩ := p
    rw [show keysliceLoop s ((k0, v) :: ps) = (match dictGet s.rename (cmpKey s k0) with
        | some k' => (k', v) :: keysliceLoop s ps
        | none =>
          if !s.included.isEmpty then if s.included.contains (cmpKey s k0) then (cmpKey s k0, v) :: keysliceLoop s ps else keysliceLoop s ps
          else if !s.omitted.isEmpty then if s.omitted.contains (cmpKey s k0) then keysliceLoop s ps else (cmpKey s k0, v) :: keysliceLoop s ps
          else (cmpKey s k0, v) :: keysliceLoop s ps) from rfl]
    simp only [List.filterMap_cons, emitted, selected, ih]
    cases dictGet s.rename (cmpKey s k0) with
    | some n => rfl
    | none =>
      cases hi : s.included with
      | nil =>
        simp only [List.isEmpty_nil, Bool.not_true, Bool.false_eq_true, if_false]
        cases ho : s.omitted with
        | nil => simp
        | cons o os =>
          by_cases h : cmpKey s k0 ∈ o :: os
          · simp [h]
          · simp [h]
      | cons i is =>
        by_cases h : cmpKey s k0 ∈ i :: is
        · simp [h]
        · simp [h]

theorem dictOf_get_append (ps : List (K × A)) (q : K × A) (k : K) :
    dictGet (dictOf (ps ++ [q])) k = if k = q.1 then some q.2 else dictGet (dictOf ps) k := by
  simp only [dictOf, List.foldl_append, List.foldl_cons, List.foldl_nil, dictGet_put]

/-- the value of a key in `dict(pairs)` is that of the last pair with the key -/
theorem dictOf_get (ps : List (K × A)) (k : K) (v : A) :
    dictGet (dictOf ps) k = some v ↔ ∃ l r, ps = l ++ (k, v) :: r ∧ ∀ p ∈ r, p.1 ≠ k := by
  generalize hl : ps.length = n
  induction n generalizing ps with
  | zero => cases List.length_eq_zero_iff.1 hl; simp [dictOf, dictGet]
  | succ n ih =>
    rcases eq_nil_or_snoc ps with rfl | ⟨ps, q, rfl⟩
    · simp at hl
    have ih := ih ps (by simp at hl; exact hl)
    rw [dictOf_get_append]
    obtain ⟨k', v'⟩ := q
    by_cases hk : k = k'
    · subst hk
      rw [if_pos rfl]
      constructor
      · intro h; cases h; exact ⟨ps, [], by simp, by simp⟩
      · rintro ⟨l, r, h, hr⟩
        rcases eq_nil_or_snoc r with rfl | ⟨r', x, rfl⟩
        · have := List.append_inj' h (by simp)
          simp at this; simp [this.2]
        · exfalso
          rw [show l ++ (k, v) :: (r' ++ [x]) = (l ++ (k, v) :: r') ++ [x] by simp] at h
          have := List.append_inj' h (by simp)
          simp at this
          exact hr x (by simp) (by rw [← this.2])
    · rw [if_neg hk, ih]
      constructor
      · rintro ⟨l, r, rfl, hr⟩
        refine ⟨l, r ++ [(k', v')], by simp, ?_⟩
        intro p hp
        rcases List.mem_append.1 hp with hp | hp
        · exact hr p hp
        · simp at hp; subst hp; exact fun h => hk h.symm
      · rintro ⟨l, r, h, hr⟩
        rcases eq_nil_or_snoc r with rfl | ⟨r', x, rfl⟩
        · have := List.append_inj' h (by simp)
          simp at this; exact absurd this.2.1.symm hk
        · rw [show l ++ (k, v) :: (r' ++ [x]) = (l ++ (k, v) :: r') ++ [x] by simp] at h
          have := List.append_inj' h (by simp)
          exact ⟨l, r', this.1, fun p hp => hr p (by simp [hp])⟩

theorem setAttrs_get (o : PyObj K A) (ps : List (K × A)) (hn : (ps.map Prod.fst).Nodup) (k : K) :
    setAttrs o ps k = match dictGet ps k with | some a => some a | none => o k := by
  induction ps generalizing o with
  | nil => rfl
  | cons p ps ih =>
    obtain ⟨k', a⟩ := p
    simp only [List.map_cons, List.nodup_cons] at hn
    simp only [setAttrs]
    rw [ih _ hn.2]
    simp only [dictGet]
    by_cases h : k' = k
    · subst h
      have : dictGet ps k' = none := dictGet_none.2 hn.1
      simp [this]
    · simp [h, show k ≠ k' from fun h' => h h'.symm]

theorem dictOf_nodup (ps : List (K × A)) : (dictKeys (dictOf ps)).Nodup := by
  unfold dictOf
  have : ∀ (ps : List (K × A)) (d : PyDict K A), (dictKeys d).Nodup → (dictKeys (ps.foldl (fun d p => dictPut d p.1 p.2) d)).Nodup := by
    intro ps
    induction ps with
    | nil => intro d h; exact h
    | cons p ps ih => intro d h; exact ih _ (nodup_dictKeys_put h _ _)
  exact this ps [] (by simp [dictKeys])

end Flatland
