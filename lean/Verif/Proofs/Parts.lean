import Verif.Spec.Parts
import Verif.Proofs.Submissions
/-! Lemmas for C80: one step down in a submitted form. -/
namespace Flatland
open Spec
section
variable [Runtime]

omit [Runtime] in
theorem handed_unique {R : Option PStr → PStr → Option PStr → Prop} (hR : ∀ k v r r', R k v r → R k v r' → r = r') {ps l : List FPair}
    (h : Handed R ps l) : ∀ {l' : List FPair}, Handed R ps l' → l = l' := by
  induction h with
  | nil => intro l' h'; cases h'; rfl
  | take hr _ ih =>
    intro l' h'
    cases h' with
    | take hr' h' => rw [hR _ _ _ _ hr hr', ih h']
    | skip hn _ => exact absurd hr (hn _)
  | skip hn _ ih =>
    intro l' h'
    cases h' with
    | take hr' h' => exact absurd hr' (hn _)
    | skip _ h' => exact ih h'

omit [Runtime] in
theorem handed_nonempty {R : Option PStr → PStr → Option PStr → Prop} {ps l : List FPair} (h : Handed R ps l) :
    l ≠ [] ↔ ∃ kv ∈ ps, ∃ r, R kv.1 kv.2 r := by
  induction h with
  | nil => simp
  | take hr _ _ => exact ⟨fun _ => ⟨_, List.mem_cons_self .., _, hr⟩, fun _ => by simp⟩
  | skip hn _ ih =>
    rw [ih]
    constructor
    · rintro ⟨kv, hm, r⟩; exact ⟨kv, List.mem_cons_of_mem _ hm, r⟩
    · rintro ⟨kv, hm, r, hr⟩
      rcases List.mem_cons.1 hm with rfl | hm
      · exact absurd hr (hn _)
      · exact ⟨kv, hm, r, hr⟩

theorem leadsInto_functional {sep : PStr} (hs : GoodSep sep) (hnl : sep ≠ ['\n']) (s : Schema) (a : Step) (k : Option PStr) (v : PStr)
    (r r' : Option PStr) (h : LeadsInto sep s a k v r) (h' : LeadsInto sep s a k v r') : r = r' := by
  cases s <;> cases a <;> simp only [LeadsInto] at h h'
  · obtain ⟨f, fn, k1, hf, hn, hp, hk, rfl⟩ := h
    obtain ⟨f', fn', k1', hf', hn', hp', hk', rfl⟩ := h'
    rw [hk] at hk'
    simpa using hk'
  · obtain ⟨_, k1, hk, hm⟩ := h
    obtain ⟨_, k1', hk', hm'⟩ := h'
    rw [hk] at hk'
    simp only [Option.some.injEq] at hk'
    subst hk'
    exact (mentions_unique hs hnl hm hm').2

/-! ### Lists -/

theorem listMatches_handed {sep : PStr} (hs : GoodSep sep) (hnl : sep ≠ ['\n']) (h : Hdr) (prune : Bool) (max : Nat) (m : Schema) (i : Nat) :
    ∀ (ps : List FPair) (ms : List (Nat × FPair)), listMatches sep h.name prune ps = .ok ms →
      Handed (LeadsInto sep (.list h prune max m) (.row i)) ps (subPairs ms i) := by
  intro ps
  induction ps with
  | nil =>
    intro ms hm
    simp only [listMatches, Except.ok.injEq] at hm
    subst hm
    exact .nil
  | cons x ps ih =>
    obtain ⟨k, v⟩ := x
    intro ms hm
    rw [listMatches.eq_def] at hm
    simp only at hm
    split at hm
    · rename_i hv
      refine .skip ?_ (ih ms hm)
      intro r hr
      simp only [Bool.and_eq_true, beq_iff_eq] at hv
      exact hr.1 hv.2 hv.1
    · rename_i hv
      cases k with
      | none => simp at hm
      | some k =>
        cases hr : listMatches sep h.name prune ps with
        | error er => rw [hr] at hm; simp [bind, Except.bind] at hm
        | ok rs =>
          rw [hr] at hm
          simp only [bind, Except.bind] at hm
          have hcount : prune = true → v ≠ [] := by
            intro hp h0; simp [hp, h0] at hv
          cases hx : idxMatch sep h.name k with
          | none =>
            rw [hx] at hm
            simp only [Except.ok.injEq] at hm
            subst hm
            refine .skip ?_ (ih rs hr)
            rintro r ⟨_, k', hk', hmn⟩
            simp only [Option.some.injEq] at hk'
            subst hk'
            rw [← idxMatch_iff hs hnl, hx] at hmn
            simp at hmn
          | some q =>
            obtain ⟨j, ck⟩ := q
            rw [hx] at hm
            simp only [Except.ok.injEq] at hm
            subst hm
            have hmn := (idxMatch_iff hs hnl _ _ _ _).1 hx
            by_cases hj : j = i
            · subst hj
              simp only [subPairs, List.filter_cons, beq_self_eq_true, if_true, List.map_cons]
              exact .take ⟨hcount, k, rfl, hmn⟩ (ih rs hr)
            · have hji : (j == i) = false := by simpa using hj
              simp only [subPairs, List.filter_cons, hji]
              refine .skip ?_ (ih rs hr)
              rintro r ⟨_, k', hk', hmn'⟩
              simp only [Option.some.injEq] at hk'
              subst hk'
              exact hj (mentions_unique hs hnl hmn hmn').1

omit [Runtime] in
theorem subPairs_nonempty (ms : List (Nat × FPair)) (i : Nat) : subPairs ms i ≠ [] ↔ ∃ m ∈ ms, m.1 = i := by
  simp [subPairs]

theorem listMatches_rows {sep : PStr} (hs : GoodSep sep) (hnl : sep ≠ ['\n']) (h : Hdr) (prune : Bool) (max : Nat) (m : Schema)
    {ps : List FPair} {ms : List (Nat × FPair)} (hm : listMatches sep h.name prune ps = .ok ms) (i : Nat) :
    (∃ x ∈ ms, x.1 = i) ↔ ∃ kv ∈ ps, ∃ r, LeadsInto sep (.list h prune max m) (.row i) kv.1 kv.2 r := by
  rw [← subPairs_nonempty, handed_nonempty (listMatches_handed hs hnl h prune max m i ps ms hm)]

/-- the rows of a List, by their numbers -/
def rowNumbers (prune : Bool) (ms : List (Nat × FPair)) : List Nat :=
  if ms.isEmpty then [] else if prune then sortedIdx ms else List.range (maxIdx ms + 1)

omit [Runtime] in
theorem rowNumbers_take (prune : Bool) (max : Nat) (ms : List (Nat × FPair)) :
    (if ms.isEmpty then [] else if prune then (sortedIdx ms).take max else List.range (min (maxIdx ms + 1) max)) =
      (rowNumbers prune ms).take max := by
  unfold rowNumbers
  cases ms.isEmpty <;> cases prune <;> simp [List.take_range, Nat.min_comm]

omit [Runtime] in
theorem rowNumbers_sorted (prune : Bool) (ms : List (Nat × FPair)) : (rowNumbers prune ms).Pairwise (· < ·) := by
  unfold rowNumbers
  split
  · exact .nil
  · split
    · exact sortedIdx_sorted ms
    · exact List.pairwise_lt_range

theorem mem_rowNumbers {sep : PStr} (hs : GoodSep sep) (hnl : sep ≠ ['\n']) (h : Hdr) (prune : Bool) (max : Nat) (m : Schema)
    {ps : List FPair} {ms : List (Nat × FPair)} (hm : listMatches sep h.name prune ps = .ok ms) (i : Nat) :
    i ∈ rowNumbers prune ms ↔ RowMade sep (.list h prune max m) prune ps i := by
  have hrow := listMatches_rows hs hnl h prune max m hm
  have key : RowMade sep (.list h prune max m) prune ps i ↔ ∃ M, (∃ x ∈ ms, x.1 = M) ∧ if prune then i = M else i ≤ M := by
    unfold RowMade
    constructor
    · rintro ⟨kv, hkv, M, r, hl, hi⟩
      exact ⟨M, (hrow M).2 ⟨kv, hkv, r, hl⟩, hi⟩
    · rintro ⟨M, hx, hi⟩
      obtain ⟨kv, hkv, r, hl⟩ := (hrow M).1 hx
      exact ⟨kv, hkv, M, r, hl, hi⟩
  rw [key]
  unfold rowNumbers
  by_cases h0 : ms = []
  · subst h0; simp
  · have hne : ms.isEmpty = false := by simpa using h0
    rw [hne]
    cases prune
    · simp only [Bool.false_eq_true, if_false, List.mem_range]
      constructor
      · intro hi
        exact ⟨maxIdx ms, maxIdx_mem ms h0, by omega⟩
      · rintro ⟨M, ⟨x, hx, rfl⟩, hi⟩
        have := le_maxIdx ms x hx
        omega
    · simp only [Bool.false_eq_true, if_false, if_true, mem_sortedIdx]
      constructor
      · intro hx; exact ⟨i, hx, rfl⟩
      · rintro ⟨M, hx, rfl⟩; exact hx

omit [Runtime] in
/-- in an increasing list the number at place `j` has exactly `j` members below it -/
theorem sorted_below {l : List Nat} (hs : l.Pairwise (· < ·)) {P : Nat → Prop} (hP : ∀ x, x ∈ l ↔ P x) (i j : Nat) :
    l[j]? = some i ↔ P i ∧ ExactlyBelow P i j := by
  have fwd : ∀ j i, l[j]? = some i → P i ∧ ExactlyBelow P i j := by
    intro j i hj
    refine ⟨(hP i).1 (List.mem_of_getElem? hj), l.take j, hs.sublist (List.take_sublist ..), ?_, ?_⟩
    · intro x
      have hlt := (List.getElem?_eq_some_iff.1 hj)
      obtain ⟨hjl, hji⟩ := hlt
      rw [← hP x]
      constructor
      · intro hx
        refine ⟨?_, List.mem_of_mem_take hx⟩
        obtain ⟨a, ha, rfl⟩ := List.mem_take_iff_getElem.1 hx
        rw [← hji]
        exact List.pairwise_iff_getElem.1 hs a j (by omega) hjl (by omega)
      · rintro ⟨hlt, hx⟩
        obtain ⟨a, ha, rfl⟩ := List.mem_iff_getElem.1 hx
        refine List.mem_take_iff_getElem.2 ⟨a, ?_, rfl⟩
        rcases Nat.lt_or_ge a j with h1 | h1
        · omega
        · exfalso
          rcases Nat.lt_or_ge j a with h2 | h2
          · have := List.pairwise_iff_getElem.1 hs j a hjl ha h2
            omega
          · have : a = j := by omega
            subst this
            omega
    · have := (List.getElem?_eq_some_iff.1 hj).1
      simp; omega
  refine ⟨fwd j i, ?_⟩
  rintro ⟨hi, l', hs', hm', hlen⟩
  obtain ⟨a, ha⟩ := List.getElem?_of_mem ((hP i).2 hi)
  obtain ⟨_, l'', hs'', hm'', hlen''⟩ := fwd a i ha
  have : l' = l'' := sorted_ext hs' hs'' fun x => by rw [hm', hm'']
  subst this
  rw [← hlen, hlen'']
  exact ha

/-- `set_flat` of a List, unfolded: the rows by their numbers -/
theorem setFlat_rows {sep : PStr} {h : Hdr} {prune : Bool} {max : Nat} {m : Schema} {e e' : Elem} {ps : List FPair}
    (hr : setFlat sep (.list h prune max m) e ps = .ok e') :
    ∃ ms kids, listMatches sep h.name prune ps = .ok ms ∧ e' = .list h.name kids ∧
      ((rowNumbers prune ms).take max).mapM (fun i =>
          if (subPairs ms i).isEmpty then .ok (fresh m) else setFlat sep m (fresh m) (subPairs ms i)) = .ok kids := by
  rw [setFlat] at hr
  cases hm : listMatches sep h.name prune ps with
  | error er => rw [hm] at hr; simp at hr
  | ok ms =>
    rw [hm] at hr
    simp only [rowNumbers_take] at hr
    split at hr
    · simp at hr
    · rename_i kids hk
      simp only [Except.ok.injEq] at hr
      exact ⟨ms, kids, rfl, hr.symm, hk⟩

/-! ### Dicts -/

omit [Runtime] in
theorem fieldPrefix_go {sep n : PStr} : ∀ (ps poss : List FPair), dictPossibles.go (n ++ sep) ps = .ok poss →
    (∀ x ∈ ps, x.1 ≠ none) := by
  intro ps
  induction ps with
  | nil => simp
  | cons x ps ih =>
    obtain ⟨k, v⟩ := x
    intro poss hp
    cases k with
    | none => simp [dictPossibles.go] at hp
    | some k =>
      rw [dictPossibles.go] at hp
      cases hr : dictPossibles.go (n ++ sep) ps with
      | error er => rw [hr] at hp; simp [bind, Except.bind] at hp
      | ok r =>
        intro x hx
        rcases List.mem_cons.1 hx with rfl | hx
        · simp
        · exact ih r hr x hx

omit [Runtime] in
theorem accumField_texts_only {f : Option PStr} : ∀ (ps accum : List FPair), accumField f ps = .ok accum → ∀ x ∈ ps, x.1 ≠ none := by
  intro ps
  induction ps with
  | nil => simp
  | cons x ps ih =>
    obtain ⟨k, v⟩ := x
    intro accum hp
    cases k with
    | none => simp [accumField] at hp
    | some k =>
      cases f with
      | none => simp [accumField] at hp
      | some f =>
        rw [accumField] at hp
        cases hr : accumField (some f) ps with
        | error er => rw [hr] at hp; simp [bind, Except.bind] at hp
        | ok r =>
          intro x hx
          rcases List.mem_cons.1 hx with rfl | hx
          · simp
          · exact ih r hr x hx

omit [Runtime] in
theorem isTexts (ps : List FPair) (h : ∀ x ∈ ps, x.1 ≠ none) : ∃ qs, ps = texts qs := by
  induction ps with
  | nil => exact ⟨[], rfl⟩
  | cons x ps ih =>
    obtain ⟨k, v⟩ := x
    obtain ⟨qs, rfl⟩ := ih fun x hx => h x (List.mem_cons_of_mem _ hx)
    cases k with
    | none => exact absurd rfl (h (none, v) (by simp))
    | some k => exact ⟨(k, v) :: qs, rfl⟩

theorem handed_field (sep : PStr) (h : Hdr) (mode : DictMode) (po : Policy) (fs : List Schema) (i : Nat) (f : Schema) (fn : PStr)
    (hf : fs[i]? = some f) (hn : f.name = some fn) (qs : List (PStr × PStr)) :
    Handed (LeadsInto sep (.dict h mode po fs) (.field i)) (texts qs)
      (texts (((qs.filter fun x => (fieldPrefix sep h.name).isPrefixOf x.1).map
        fun x => (x.1.drop (fieldPrefix sep h.name).length, x.2)).filter fun x => fn.isPrefixOf x.1)) := by
  induction qs with
  | nil => exact .nil
  | cons x qs ih =>
    obtain ⟨k, v⟩ := x
    have hcons : texts ((k, v) :: qs) = (some k, v) :: texts qs := rfl
    rw [hcons, List.filter_cons]
    by_cases h1 : (fieldPrefix sep h.name).isPrefixOf k = true
    · rw [if_pos h1, List.map_cons, List.filter_cons]
      obtain ⟨u, rfl⟩ := List.isPrefixOf_iff_prefix.1 h1
      simp only [List.drop_left]
      by_cases h2 : fn.isPrefixOf u = true
      · rw [if_pos h2]
        exact .take ⟨f, fn, u, hf, hn, List.isPrefixOf_iff_prefix.1 h2, rfl, rfl⟩ ih
      · rw [if_neg h2]
        refine .skip ?_ ih
        rintro r ⟨f', fn', k', hf', hn', hp, hk, rfl⟩
        rw [hf] at hf'
        cases hf'
        rw [hn] at hn'
        cases hn'
        simp only [Option.some.injEq, List.append_cancel_left_eq] at hk
        subst hk
        exact h2 (List.isPrefixOf_iff_prefix.2 hp)
    · rw [if_neg h1]
      refine .skip ?_ ih
      rintro r ⟨f', fn', k', hf', hn', hp, hk, rfl⟩
      simp only [Option.some.injEq] at hk
      exact h1 (List.isPrefixOf_iff_prefix.2 ⟨k', hk.symm⟩)

omit [Runtime] in
theorem handed_none {R : Option PStr → PStr → Option PStr → Prop} (ps : List FPair) (h : ∀ kv ∈ ps, ∀ r, ¬ R kv.1 kv.2 r) : Handed R ps [] := by
  induction ps with
  | nil => exact .nil
  | cons x ps ih =>
    exact .skip (fun r hr => h x (List.mem_cons_self ..) r hr) (ih fun kv hkv => h kv (List.mem_cons_of_mem _ hkv))

theorem dict_handed (sep : PStr) (h : Hdr) (mode : DictMode) (po : Policy) (fs : List Schema) (i : Nat) (f : Schema)
    (hf : fs[i]? = some f) (ps poss accum : List FPair) (hp : dictPossibles sep h.name ps = .ok poss)
    (ha : accumField f.name poss = .ok accum) :
    Handed (LeadsInto sep (.dict h mode po fs) (.field i)) ps accum := by
  have htext : ∀ x ∈ ps, x.1 ≠ none := by
    cases hn : h.name with
    | none =>
      rw [hn] at hp
      simp only [dictPossibles, Except.ok.injEq] at hp
      subst hp
      exact accumField_texts_only _ _ ha
    | some n =>
      rw [hn, dictPossibles] at hp
      exact fieldPrefix_go _ _ hp
  obtain ⟨qs, rfl⟩ := isTexts ps htext
  rw [dictPossibles_texts] at hp
  simp only [Except.ok.injEq] at hp
  cases hfn : f.name with
  | some fn =>
    rw [hfn, ← hp, accumField_texts] at ha
    simp only [Except.ok.injEq] at ha
    rw [← ha]
    exact handed_field sep h mode po fs i f fn hf hfn qs
  | none =>
    rw [hfn] at ha
    have : accum = [] := by
      cases poss with
      | nil => simpa [accumField, eq_comm] using ha
      | cons x poss =>
        obtain ⟨k, v⟩ := x
        cases k <;> simp [accumField] at ha
    subst this
    apply handed_none
    rintro kv _ r ⟨f', fn', k', hf', hn', _⟩
    rw [hf] at hf'
    cases hf'
    rw [hfn] at hn'
    cases hn'

theorem setFlat_dict_fields {sep : PStr} {h : Hdr} {mode : DictMode} {po : Policy} {fs : List Schema} {ps : List FPair} {e' : Elem}
    (hr : setFlat sep (.dict h mode po fs) (fresh (.dict h mode po fs)) ps = .ok e') :
    ∃ kids, e' = .dict h.name kids ∧ kids.length = fs.length ∧ ∀ (i : Nat) f k, fs[i]? = some f → kids[i]? = some k →
      ∃ accum, Handed (LeadsInto sep (.dict h mode po fs) (.field i)) ps accum ∧
        (if accum.isEmpty then .ok (if autoField mode f then fresh f else .absent) else setFlat sep f (fresh f) accum) = .ok k := by
  rw [setFlat] at hr
  cases hp : dictPossibles sep h.name ps with
  | error er => rw [hp] at hr; simp at hr
  | ok poss =>
    rw [hp] at hr
    simp only at hr
    split at hr
    · rename_i h0
      simp only [Except.ok.injEq] at hr
      refine ⟨freshFields mode fs, by rw [← hr, fresh], freshFields_length .., ?_⟩
      intro i f k hf hk
      refine ⟨[], dict_handed sep h mode po fs i f hf ps poss [] hp ?_, ?_⟩
      · rw [List.isEmpty_iff.1 h0]; rfl
      · rw [freshFields_get mode fs i f hf] at hk
        simpa using hk
    · split at hr
      · simp at hr
      · rename_i kids hk
        simp only [Except.ok.injEq] at hr
        obtain ⟨hl, hall⟩ := setFlatFields_get _ _ _ _ hk
        refine ⟨kids, hr.symm, hl, ?_⟩
        intro i f k hf hki
        obtain ⟨accum, ha, hb⟩ := hall i f k hf hki
        refine ⟨accum, dict_handed sep h mode po fs i f hf ps poss accum hp ha, ?_⟩
        rw [fresh] at hb
        simp only [Elem.kids, freshFields_get mode fs i f hf, Option.getD_some] at hb
        rw [← hb]
        cases hau : autoField mode f
        · simp [orFresh]
        · have : orFresh f (fresh f) = fresh f := by cases f <;> simp [fresh, orFresh]
          simp [this]

end
end Flatland
