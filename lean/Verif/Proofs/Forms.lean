import Verif.Spec.Forms
import Verif.Proofs.Validate
/-! Lemmas about field inheritance. -/
namespace Flatland
open Spec

variable {N F A : Type} [DecidableEq N] [DecidableEq F]

/-- elements have different names, and `names` lists them -/
structure ColOk (fc : FieldClass N F) (col : Collection N F) : Prop where
  nodup : (col.elements.map fc.name).Nodup
  names : ∀ n, n ∈ col.names ↔ n ∈ col.elements.map fc.name

omit [DecidableEq N] [DecidableEq F] in
theorem empty_ok (fc : FieldClass N F) : ColOk fc .empty := ⟨by simp [Collection.empty], by simp [Collection.empty]⟩

omit [DecidableEq F] in
theorem firstNamed_append (fc : FieldClass N F) (n : N) (xs ys : List F) : firstNamed fc n (xs ++ ys) = (firstNamed fc n xs).or (firstNamed fc n ys) := by
  simp [firstNamed, List.find?_append]

omit [DecidableEq F] in
theorem firstNamed_none {fc : FieldClass N F} {n : N} {xs : List F} (h : n ∉ xs.map fc.name) : firstNamed fc n xs = none := by
  rw [firstNamed, List.find?_eq_none]
  intro x hx
  simp only [decide_eq_true_iff]
  exact fun he => h (List.mem_map.2 ⟨x, hx, he⟩)

omit [DecidableEq F] in
theorem firstNamed_some {fc : FieldClass N F} {n : N} {xs : List F} (h : n ∈ xs.map fc.name) : ∃ f, firstNamed fc n xs = some f := by
  obtain ⟨x, hx, hn⟩ := List.mem_map.1 h
  cases hf : firstNamed fc n xs with
  | some f => exact ⟨f, rfl⟩
  | none =>
    rw [firstNamed, List.find?_eq_none] at hf
    exact absurd (by simpa using hn) (hf x hx)

omit [DecidableEq F] in
theorem mem_firstNamed {fc : FieldClass N F} {xs : List F} (hn : (xs.map fc.name).Nodup) (f : F) : f ∈ xs ↔ firstNamed fc (fc.name f) xs = some f := by
  constructor
  · intro h
    induction xs with
    | nil => simp at h
    | cons x xs ih =>
      rw [List.map_cons, List.nodup_cons] at hn
      rw [firstNamed, List.find?_cons]
      rcases List.mem_cons.1 h with rfl | h
      · simp
      · have hne : ¬ fc.name x = fc.name f := fun he => hn.1 (he ▸ List.mem_map_of_mem h)
        simp only [hne, decide_false]
        exact ih hn.2 h
  · intro h; exact List.mem_of_find?_eq_some h

omit [DecidableEq F] in
theorem addUnseen_ok (fc : FieldClass N F) (fs : List F) {col : Collection N F} (h : ColOk fc col) :
    ColOk fc (addUnseen fc col fs) ∧ ∀ n, firstNamed fc n (addUnseen fc col fs).elements = (firstNamed fc n col.elements).or (firstNamed fc n fs) := by
  induction fs generalizing col with
  | nil => simp [addUnseen, firstNamed, h]
  | cons f fs ih =>
    rw [addUnseen]
    by_cases hm : fc.name f ∈ col.names
    · rw [if_pos hm]
      refine ⟨(ih h).1, fun n => ?_⟩
      rw [(ih h).2 n]
      by_cases hn : fc.name f = n
      · subst hn
        obtain ⟨g, hg⟩ := firstNamed_some ((h.names _).1 hm)
        simp [hg]
      · simp [firstNamed, List.find?_cons, hn]
    · rw [if_neg hm]
      have hne : fc.name f ∉ col.elements.map fc.name := fun h' => hm ((h.names _).2 h')
      have h' : ColOk fc ⟨col.elements ++ [f], fc.name f :: col.names⟩ := by
        constructor
        · rw [List.map_append, List.nodup_append]
          refine ⟨h.nodup, by simp, ?_⟩
          intro a ha b hb hab
          simp at hb
          subst hb; subst hab
          exact hne ha
        · intro n
          simp only [List.mem_cons, List.map_append, List.map_cons, List.map_nil, List.mem_append, List.not_mem_nil, or_false]
          rw [h.names]
          exact Or.comm
      refine ⟨(ih h').1, fun n => ?_⟩
      rw [(ih h').2 n, firstNamed_append, Option.or_assoc]
      congr 1
      simp [firstNamed, List.find?_cons]
      split <;> simp

omit [DecidableEq F] in
theorem addBases_ok (fc : FieldClass N F) (bs : List (List F)) {col : Collection N F} (h : ColOk fc col) :
    ColOk fc (addBases fc col bs) ∧ ∀ n, firstNamed fc n (addBases fc col bs).elements = (firstNamed fc n col.elements).or (firstNamed fc n bs.flatten) := by
  induction bs generalizing col with
  | nil => simp [addBases, firstNamed, h]
  | cons b bs ih =>
    have h1 := addUnseen_ok fc b h
    have h2 := ih h1.1
    rw [addBases]
    refine ⟨h2.1, fun n => ?_⟩
    rw [h2.2, h1.2, List.flatten_cons, firstNamed_append, Option.or_assoc]

theorem dropNamed_eq (fc : FieldClass N F) (n : N) (all : List F) (pre xs : List F) (ha : all = pre ++ xs) (hn : (all.map fc.name).Nodup)
    (hpre : ∀ p ∈ pre, fc.name p ≠ n) : dropNamed fc n all xs = all.filter fun f => decide (fc.name f ≠ n) := by
  induction xs generalizing pre with
  | nil =>
    rw [dropNamed, List.filter_eq_self.2]
    intro a h
    rw [ha, List.append_nil] at h
    simpa using hpre a h
  | cons x xs ih =>
    rw [dropNamed]
    by_cases hx : fc.name x = n
    · rw [if_pos hx]
      subst ha
      have hxp : x ∉ pre := fun h => hpre x h hx
      rw [List.erase_append_right _ hxp, List.erase_cons_head, List.filter_append, List.filter_cons, if_neg (by simpa using hx)]
      rw [List.filter_eq_self.2 (by intro a h; simpa using hpre a h), List.filter_eq_self.2]
      intro a h
      simp only [decide_eq_true_iff]
      intro he
      simp only [List.map_append, List.map_cons] at hn
      have := (List.nodup_append.1 hn).2.1
      rw [List.nodup_cons] at this
      exact this.1 (by rw [hx, ← he]; exact List.mem_map_of_mem h)
    · rw [if_neg hx]
      refine ih (pre ++ [x]) (by simp [ha]) ?_
      intro p hp
      rcases List.mem_append.1 hp with hp | hp
      · exact hpre p hp
      · simp at hp; subst hp; exact hx

theorem addOverwrite_ok (fc : FieldClass N F) (fs : List F) {col : Collection N F} (h : ColOk fc col) :
    ColOk fc (addOverwrite fc col fs) ∧ ∀ n, firstNamed fc n (addOverwrite fc col fs).elements = (lastNamed fc n fs).or (firstNamed fc n col.elements) := by
  induction fs generalizing col with
  | nil => simp [addOverwrite, lastNamed, h]
  | cons f fs ih =>
    rw [addOverwrite]
    have he : (if fc.name f ∈ col.names then dropNamed fc (fc.name f) col.elements col.elements else col.elements) =
        col.elements.filter fun g => decide (fc.name g ≠ fc.name f) := by
      split
      · exact dropNamed_eq fc _ _ [] _ rfl h.nodup (by simp)
      · rename_i hm
        rw [List.filter_eq_self.2]
        intro g hg
        simp only [decide_eq_true_iff]
        intro he
        exact hm ((h.names _).2 (he ▸ List.mem_map_of_mem hg))
    rw [he]
    have h' : ColOk fc ⟨(col.elements.filter fun g => decide (fc.name g ≠ fc.name f)) ++ [f], fc.name f :: col.names⟩ := by
      constructor
      · rw [List.map_append, List.nodup_append]
        refine ⟨List.Sublist.nodup (List.Sublist.map _ List.filter_sublist) h.nodup, by simp, ?_⟩
        intro a ha b hb hab
        simp only [List.map_cons, List.map_nil, List.mem_singleton] at hb
        subst hb; subst hab
        obtain ⟨g, hg, hgn⟩ := List.mem_map.1 ha
        simpa [hgn] using (List.mem_filter.1 hg).2
      · intro n
        simp only [List.mem_cons, List.map_append, List.map_cons, List.map_nil, List.mem_append, List.not_mem_nil, or_false]
        rw [h.names]
        constructor
        · rintro (hn | hn)
          · exact .inr hn
          · by_cases hnf : n = fc.name f
            · exact .inr hnf
            · obtain ⟨g, hg, rfl⟩ := List.mem_map.1 hn
              exact .inl (List.mem_map.2 ⟨g, List.mem_filter.2 ⟨hg, by simpa using hnf⟩, rfl⟩)
        · rintro (hn | hn)
          · obtain ⟨g, hg, rfl⟩ := List.mem_map.1 hn
            exact .inr (List.mem_map_of_mem (List.mem_filter.1 hg).1)
          · exact .inl hn
    refine ⟨(ih h').1, fun n => ?_⟩
    rw [(ih h').2 n, firstNamed_append]
    have hl : lastNamed fc n (f :: fs) = (lastNamed fc n fs).or (firstNamed fc n [f]) := by
      simp [lastNamed, firstNamed, List.find?_append]
    rw [hl, Option.or_assoc]
    congr 1
    by_cases hn : fc.name f = n
    · subst hn
      have : firstNamed fc (fc.name f) (col.elements.filter fun g => decide (fc.name g ≠ fc.name f)) = none := by
        apply firstNamed_none
        intro h1
        obtain ⟨g, hg, hgn⟩ := List.mem_map.1 h1
        simpa [hgn] using (List.mem_filter.1 hg).2
      rw [this]
      simp [firstNamed]
    · have : firstNamed fc n (col.elements.filter fun g => decide (fc.name g ≠ fc.name f)) = firstNamed fc n col.elements := by
        generalize col.elements = l
        induction l with
        | nil => rfl
        | cons x l ihl =>
          simp only [firstNamed] at ihl ⊢
          rw [List.filter_cons]
          by_cases hx : fc.name x = fc.name f
          · rw [if_neg (by simpa using hx), List.find?_cons]
            have : ¬ fc.name x = n := by rw [hx]; exact hn
            simpa [this] using ihl
          · rw [if_pos (by simpa using hx), List.find?_cons, List.find?_cons, ihl]
      rw [this]
      simp [firstNamed, hn]

omit [DecidableEq F] in
theorem declared_names {fc : FieldClass N F} (hr : Renames fc) (members : List (N × Member F A)) (hm : (members.map Prod.fst).Nodup) (n : N) :
    lastNamed fc n (declaredFields fc members) = attributeField fc n members := by
  suffices H : ((declaredFields fc members).map fc.name).Nodup ∧ (∀ n ∈ (declaredFields fc members).map fc.name, n ∈ members.map Prod.fst) ∧
      firstNamed fc n (declaredFields fc members) = attributeField fc n members by
    rw [← H.2.2]
    have hrev : ((declaredFields fc members).reverse.map fc.name).Nodup := by
      rw [List.map_reverse]; exact nodup_reverse.2 H.1
    have hl : lastNamed fc n (declaredFields fc members) = firstNamed fc n (declaredFields fc members).reverse := rfl
    rw [hl]
    cases h1 : firstNamed fc n (declaredFields fc members) with
    | none =>
      apply firstNamed_none
      intro h2
      rw [List.map_reverse, List.mem_reverse] at h2
      obtain ⟨f, hf⟩ := firstNamed_some h2
      simp [h1] at hf
    | some f =>
      have hfn : fc.name f = n := by simpa using List.find?_some h1
      subst hfn
      rw [← mem_firstNamed hrev, List.mem_reverse]
      exact List.mem_of_find?_eq_some h1
  induction members with
  | nil => simp [declaredFields, firstNamed, attributeField]
  | cons p ms ih =>
    obtain ⟨m, x⟩ := p
    rw [List.map_cons, List.nodup_cons] at hm
    obtain ⟨i1, i2, i3⟩ := ih hm.2
    cases x with
    | other a => exact ⟨i1, fun n hn => by simp [i2 n hn], i3⟩
    | field f =>
      have hname : fc.name (if m ≠ fc.name f then fc.named f m else f) = m := by
        by_cases h : m = fc.name f
        · simp [h]
        · simp [h, hr f m]
      simp only [declaredFields, List.map_cons, hname, attributeField]
      refine ⟨?_, ?_, ?_⟩
      · rw [List.nodup_cons]; exact ⟨fun h => hm.1 (i2 m h), i1⟩
      · intro k hk
        rcases List.mem_cons.1 hk with rfl | hk
        · simp
        · simp [i2 k hk]
      · rw [firstNamed, List.find?_cons, hname]
        by_cases h : m = n
        · subst h
          simp only [decide_true, if_true]
          congr 1
          by_cases h2 : fc.name f = m
          · simp [h2]
          · simp [h2, show m ≠ fc.name f from fun h3 => h2 h3.symm]
        · simp only [h, decide_false, if_false]
          exact i3

theorem formFields_ok {fc : FieldClass N F} (hr : Renames fc) (bases : List (List F)) (own : List F) (members : List (N × Member F A))
    (hm : (members.map Prod.fst).Nodup) :
    ((formFields fc bases own members).map fc.name).Nodup ∧ ∀ n, firstNamed fc n (formFields fc bases own members) = resolve fc bases own members n := by
  have h1 := addBases_ok fc bases (empty_ok fc)
  have h2 := addOverwrite_ok fc own h1.1
  have h3 := addOverwrite_ok fc (declaredFields fc members) h2.1
  refine ⟨h3.1.nodup, fun n => ?_⟩
  unfold formFields
  rw [h3.2, h2.2, h1.2, declared_names hr members hm]
  simp [resolve, Collection.empty, firstNamed]

omit [DecidableEq F] in
theorem firstNamed_isSome (fc : FieldClass N F) (n : N) (fs : List F) : (firstNamed fc n fs).isSome ↔ ∃ f ∈ fs, fc.name f = n := by
  simp [firstNamed]

omit [DecidableEq F] in
theorem lastNamed_isSome (fc : FieldClass N F) (n : N) (fs : List F) : (lastNamed fc n fs).isSome ↔ ∃ f ∈ fs, fc.name f = n := by
  simp [lastNamed]

omit [DecidableEq F] in
theorem attributeField_isSome (fc : FieldClass N F) (n : N) (ms : List (N × Member F A)) :
    (attributeField fc n ms).isSome ↔ ∃ f, (n, Member.field f) ∈ ms := by
  induction ms with
  | nil => simp [attributeField]
  | cons p ms ih =>
    obtain ⟨m, x⟩ := p
    cases x with
    | other a => simp [attributeField, ih]
    | field f =>
      rw [attributeField]
      by_cases h : m = n
      · subst h; simp
      · simp [h, ih, show n ≠ m from fun h' => h h'.symm]

omit [DecidableEq F] in
theorem attributeField_name {fc : FieldClass N F} (hr : Renames fc) {n : N} {ms : List (N × Member F A)} {f : F} (h : attributeField fc n ms = some f) :
    fc.name f = n := by
  induction ms with
  | nil => simp [attributeField] at h
  | cons p ms ih =>
    obtain ⟨m, x⟩ := p
    cases x with
    | other a => exact ih h
    | field g =>
      rw [attributeField] at h
      by_cases hm : m = n
      · rw [if_pos hm] at h
        injection h with h
        by_cases hg : fc.name g = n
        · rw [if_pos hg] at h; rw [← h, hg]
        · rw [if_neg hg] at h; rw [← h, hr]
      · rw [if_neg hm] at h; exact ih h

omit [DecidableEq F] in
theorem resolve_name {fc : FieldClass N F} (hr : Renames fc) {bases : List (List F)} {own : List F} {ms : List (N × Member F A)} {n : N} {f : F}
    (h : resolve fc bases own ms n = some f) : fc.name f = n := by
  rw [resolve, Option.or_eq_some_iff, Option.or_eq_some_iff] at h
  rcases h with h | ⟨_, h | ⟨_, h⟩⟩
  · exact attributeField_name hr h
  · simpa using List.find?_some h
  · simpa using List.find?_some h

end Flatland
