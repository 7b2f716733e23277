import Verif.Proofs.Stored
import Verif.Props.ValueSet
/-! Lemmas about forms whose value cannot be set again. -/
namespace Flatland
open Flatland.Spec

section
variable [Runtime]

omit [Runtime] in
theorem kidItems_kid {mode : DictMode} : ∀ {fs : List Schema} {ks : List Elem}, ConformsAll mode fs ks → ∀ {q : PStr × PyVal}, q ∈ kidItems ks →
    ∃ (i : Nat) (f : Schema) (k : Elem), fs[i]? = some f ∧ ks[i]? = some k ∧ Conforms f k ∧ q = (f.name.getD [], elemValue k)
  | [], [], _, q, h => by simp [kidItems] at h
  | [], _ :: _, hc, _, _ => by simp [ConformsAll] at hc
  | _ :: _, [], hc, _, _ => by simp [ConformsAll] at hc
  | f :: fs, k :: ks, hc, q, h => by
    rw [ConformsAll] at hc
    rw [kidItems] at h
    split at h
    · rename_i hp
      rcases List.mem_cons.1 h with rfl | h
      · rcases hc.1 with ⟨rfl, _⟩ | hk
        · simp [Elem.present] at hp
        · exact ⟨0, f, k, rfl, rfl, hk, by rw [(conforms_name hk).1]⟩
      · obtain ⟨i, g, l, h1, h2, h3⟩ := kidItems_kid hc.2 h
        exact ⟨i + 1, g, l, by simpa using h1, by simpa using h2, h3⟩
    · obtain ⟨i, g, l, h1, h2, h3⟩ := kidItems_kid hc.2 h
      exact ⟨i + 1, g, l, by simpa using h1, by simpa using h2, h3⟩

omit [Runtime] in
theorem kid_kidItems {mode : DictMode} : ∀ {fs : List Schema} {ks : List Elem}, ConformsAll mode fs ks → ∀ {i : Nat} {f : Schema} {k : Elem},
    fs[i]? = some f → ks[i]? = some k → k.present = true → Conforms f k ∧ (f.name.getD [], elemValue k) ∈ kidItems ks
  | [], _, _, i, f, k, h, _, _ => by simp at h
  | _ :: _, [], _, i, f, k, _, h, _ => by simp at h
  | f :: fs, k :: ks, hc, i, g, l, h1, h2, h3 => by
    rw [ConformsAll] at hc
    cases i with
    | zero =>
      simp only [List.getElem?_cons_zero, Option.some.injEq] at h1 h2
      subst h1 h2
      rcases hc.1 with ⟨rfl, _⟩ | hk
      · simp [Elem.present] at h3
      · exact ⟨hk, by rw [kidItems_present h3, (conforms_name hk).1]; simp⟩
    | succ i =>
      obtain ⟨a, b⟩ := kid_kidItems hc.2 (i := i) (by simpa using h1) (by simpa using h2) h3
      refine ⟨a, ?_⟩
      rw [kidItems]
      split
      · exact List.mem_cons_of_mem _ b
      · exact b

omit [Runtime] in
theorem eachAll_get {P : Bool → ScalarType → ScalarState → Prop} {p : Bool} : ∀ {fs : List Schema} {ks : List Elem}, EachScalarAll P p fs ks →
    ∀ {i : Nat} {f : Schema} {k : Elem}, fs[i]? = some f → ks[i]? = some k → EachScalar P p f k
  | [], _, _, i, f, k, h, _ => by simp at h
  | _ :: _, [], _, i, f, k, _, h => by simp at h
  | f :: fs, k :: ks, hc, i, g, l, h1, h2 => by
    rw [EachScalarAll] at hc
    cases i with
    | zero => simp only [List.getElem?_cons_zero, Option.some.injEq] at h1 h2; subst h1 h2; exact hc.1
    | succ i => exact eachAll_get hc.2 (i := i) (by simpa using h1) (by simpa using h2)

omit [Runtime] in
theorem namedAll_mem : ∀ {fs : List Schema}, NamedFieldsAll fs → ∀ f ∈ fs, NamedFields f
  | [], _, f, h => by simp at h
  | g :: fs, hn, f, h => by
    rw [NamedFieldsAll] at hn
    rcases List.mem_cons.1 h with rfl | h
    · exact hn.1
    · exact namedAll_mem hn.2 f h

omit [Runtime] in
theorem refusesAll_get : ∀ {fs : List Schema} {ks : List Elem}, RefusesAll fs ks →
    ∃ (i : Nat) (f : Schema) (k : Elem), fs[i]? = some f ∧ ks[i]? = some k ∧ Refuses f k
  | [], _, h => by simp [RefusesAll] at h
  | _ :: _, [], h => by simp [RefusesAll] at h
  | f :: fs, k :: ks, h => by
    rw [RefusesAll] at h
    rcases h with h | h
    · exact ⟨0, f, k, rfl, rfl, h⟩
    · obtain ⟨i, g, l, h1, h2, h3⟩ := refusesAll_get h
      exact ⟨i + 1, g, l, by simpa using h1, by simpa using h2, h3⟩

omit [Runtime] in
theorem same_kidField {fs : List Schema} (hnd : (fs.map Schema.name).Nodup) {i : Nat} {f g : Schema} (hi : fs[i]? = some f) (hg : g ∈ fs) (h : f.name = g.name) : g = f := by
  obtain ⟨j, hj⟩ := List.getElem?_of_mem hg
  have h1 : (fs.map Schema.name)[i]? = some f.name := by simp [hi]
  have h2 : (fs.map Schema.name)[j]? = some f.name := by simp [hj, h]
  obtain ⟨a, ha⟩ := List.getElem?_eq_some_iff.1 h1
  obtain ⟨b, hb⟩ := List.getElem?_eq_some_iff.1 h2
  have : i = j := (List.getElem_inj hnd).1 (ha.trans hb.symm)
  subst this
  rw [hi] at hj
  exact (Option.some.inj hj).symm

omit [Runtime] in
theorem memberLoop_typeOnly {setter : PyVal → Except PyErr (Elem × Bool)} : ∀ {ks : List Elem}, (∀ k ∈ ks, ∀ er, setter (elemValue k) = .error er → er = .type) →
    ∀ {er : PyErr}, memberSetLoop setter (kidValues ks) = .error er → er = .type
  | [], _, er, h => by simp [kidValues, memberSetLoop] at h
  | k :: ks, hk, er, h => by
    rw [kidValues, memberSetLoop] at h
    cases h1 : setter (elemValue k) with
    | error x => rw [h1] at h; cases h; exact hk k (by simp) _ h1
    | ok r =>
      rw [h1] at h
      simp only at h
      cases h2 : memberSetLoop setter (kidValues ks) with
      | error x => rw [h2] at h; cases h; exact memberLoop_typeOnly (fun x hx => hk x (by simp [hx])) h2
      | ok r => rw [h2] at h; cases h

omit [Runtime] in
theorem seqSetVal_typeOnly {setter : PyVal → Except PyErr (Elem × Bool)} {ks : List Elem} (hk : ∀ k ∈ ks, ∀ er, setter (elemValue k) = .error er → er = .type)
    {er : PyErr} (h : seqSetVal setter (.list (kidValues ks)) = .error er) : er = .type := by
  rw [seqSetVal, pyIter] at h
  simp only at h
  cases h2 : memberSetLoop setter (kidValues ks) with
  | error x =>
    have := memberLoop_typeOnly hk h2
    subst this
    rw [h2] at h
    cases h
  | ok r => rw [h2] at h; cases h

omit [Runtime] in
/-- a member that raises TypeError ends the loop with it -/
theorem memberLoop_error {setter : PyVal → Except PyErr (Elem × Bool)} : ∀ {ks : List Elem}, (∀ k ∈ ks, ∀ er, setter (elemValue k) = .error er → er = .type) →
    (∃ k ∈ ks, setter (elemValue k) = .error .type) → memberSetLoop setter (kidValues ks) = .error .type
  | [], _, h => by simp at h
  | k :: ks, hk, h => by
    rw [kidValues, memberSetLoop]
    cases h1 : setter (elemValue k) with
    | error x => rw [hk k (by simp) _ h1]
    | ok r =>
      obtain ⟨l, hl, h⟩ := h
      rcases List.mem_cons.1 hl with rfl | hl
      · rw [h1] at h; cases h
      · simp only
        rw [memberLoop_error (fun x hx => hk x (by simp [hx])) ⟨l, hl, h⟩]

/-- nothing but a TypeError -/
theorem setVal_typeOnly : ∀ (s : Schema) (p : Bool) (e : Elem) (er : PyErr), NamedFields s → Conforms s e → EachScalar (fun _ => TakesItsValue) p s e →
    setVal s (elemValue e) = .error er → er = .type
  | .scalar h t, p, e, er, hn, hc, hs, hr => by
    cases e <;> simp only [Conforms] at hc
    rename_i n st
    rw [EachScalar] at hs
    obtain ⟨b, hb⟩ := hs
    rw [setVal, elemValue] at hr
    rcases h1 : scalarSet t .fresh st.value with ⟨st', r⟩
    rw [h1] at hb hr
    simp only at hb
    subst hb
    cases hr
  | .dict h mode policy fs, p, e, er, hn, hc, hs, hr => by
    cases e <;> simp only [Conforms] at hc
    rename_i n ks
    rw [NamedFields] at hn
    rw [EachScalar] at hs
    rw [elemValue, C30_tree_raises _ _ _ _ hn.2.1] at hr
    rcases hr with ⟨_, h⟩ | ⟨pre, x, post, h1, _, h2⟩ | ⟨_, _, _, _, _, _, _, h⟩
    · exact h
    · simp only [entriesOf, Option.some.injEq] at h1
      have hx : x ∈ (kidItems ks).map fun p => Entry.pair (.str p.1) p.2 := by rw [h1]; simp
      obtain ⟨q, hq, rfl⟩ := List.mem_map.1 hx
      obtain ⟨i, f, k, e1, e2, e3, rfl⟩ := kidItems_kid hc.2 hq
      obtain ⟨kn, hkn⟩ : ∃ kn, f.name = some kn := by
        cases hfn : f.name with
        | none => exact absurd hfn (hn.1 f (List.mem_of_getElem? e1))
        | some kn => exact ⟨kn, rfl⟩
      cases h2 with
      | unhashable hu => exact hu.elim
      | unknown _ hu _ => exact (hu f (List.mem_of_getElem? e1) kn hkn (by simp [hkn])).elim
      | field hf hsup hset =>
        obtain ⟨gn, hgn, heq⟩ := hsup
        simp only [Entry.pair.injEq, PyVal.str.injEq, hkn, Option.getD_some] at heq
        obtain ⟨rfl, rfl⟩ := heq
        have := same_kidField hn.2.1 e1 hf (hkn.trans hgn.symm)
        subst this
        have hlt := List.sizeOf_lt_of_mem hf
        exact setVal_typeOnly _ p k er (namedAll_mem hn.2.2 _ hf) e3 (eachAll_get hs e1 e2) hset
    · exact h
  | .list h prune max m, p, e, er, hn, hc, hs, hr => by
    cases e <;> simp only [Conforms] at hc
    rename_i n ks
    rw [NamedFields] at hn
    rw [EachScalar] at hs
    rw [setVal, elemValue] at hr
    rcases h1 : seqSetVal (setVal m) (.list (kidValues ks)) with x | ⟨es, b⟩
    · rw [h1] at hr
      cases hr
      exact seqSetVal_typeOnly (fun k hk er => setVal_typeOnly m (p || prune) k er hn (hc.2 k hk) (hs k hk)) h1
    · rw [h1] at hr; cases hr
  | .array h prune m, p, e, er, hn, hc, hs, hr => by
    cases e <;> simp only [Conforms] at hc
    rename_i n ks
    rw [NamedFields] at hn
    rw [EachScalar] at hs
    rw [setVal, elemValue] at hr
    rcases h1 : seqSetVal (setVal m) (.list (kidValues ks)) with x | ⟨es, b⟩
    · rw [h1] at hr
      cases hr
      exact seqSetVal_typeOnly (fun k hk er => setVal_typeOnly m false k er hn (hc.2 k hk) (hs k hk)) h1
    · rw [h1] at hr; cases hr
termination_by s => sizeOf s
decreasing_by all_goals first | (simp; done) | (simp; omega)

theorem setVal_refuses : ∀ (s : Schema) (p : Bool) (e : Elem), NamedFields s → Conforms s e → EachScalar (fun _ => TakesItsValue) p s e → Refuses s e →
    setVal s (elemValue e) = .error .type
  | .dict h mode policy fs, p, e, hn, hc, hs, hr => by
    have hto := fun x => setVal_typeOnly _ p e x hn hc hs
    cases h0 : setVal (.dict h mode policy fs) (elemValue e) with
    | error x => rw [hto x h0]
    | ok r =>
      exfalso
      obtain ⟨e', b⟩ := r
      cases e <;> simp only [Conforms] at hc
      rename_i n ks
      rw [NamedFields] at hn
      rw [EachScalar] at hs
      rw [Refuses] at hr
      rw [elemValue, C30_tree_set _ _ _ _ hn.2.1] at h0
      obtain ⟨l, kids, h1, h2, h3, -⟩ := h0
      simp only [entriesOf, Option.some.injEq] at h1
      subst h1
      rcases hr with ⟨hst, k, hk, hp⟩ | hr
      · obtain ⟨i, hi⟩ := List.getElem?_of_mem hk
        have hlen := conformsAll_length hc.2
        have hil : i < fs.length := by rw [← hlen]; exact (List.getElem?_eq_some_iff.1 hi).1
        have hf : fs[i]? = some fs[i] := List.getElem?_eq_getElem hil
        refine h3 hst fs[i] (List.getElem_mem hil) ?_
        intro x hx v hv
        obtain ⟨q, hq, rfl⟩ := List.mem_map.1 hx
        obtain ⟨j, g, k', e1, e2, e3, rfl⟩ := kidItems_kid hc.2 hq
        obtain ⟨gn, hgn, heq⟩ := hv
        obtain ⟨kn, hkn⟩ : ∃ kn, g.name = some kn := by
          cases hfn : g.name with
          | none => exact absurd hfn (hn.1 g (List.mem_of_getElem? e1))
          | some kn => exact ⟨kn, rfl⟩
        simp only [Entry.pair.injEq, PyVal.str.injEq, hkn, Option.getD_some] at heq
        have h1 : (fs.map Schema.name)[i]? = some (some gn) := by simp [hil, hgn]
        have h2 : (fs.map Schema.name)[j]? = some (some gn) := by simp [e1, hkn, heq.1]
        obtain ⟨a, ha⟩ := List.getElem?_eq_some_iff.1 h1
        obtain ⟨b, hb⟩ := List.getElem?_eq_some_iff.1 h2
        have : i = j := (List.getElem_inj hn.2.1).1 (ha.trans hb.symm)
        subst this
        rw [hi] at e2
        cases e2
        rw [(conforms_name e3).2] at hp
        cases hp
      · obtain ⟨i, f, k, e1, e2, e3⟩ := refusesAll_get hr
        have hp : k.present = true := by
          cases k with
          | absent => cases f <;> simp [Refuses] at e3
          | _ => rfl
        obtain ⟨hck, hmem⟩ := kid_kidItems hc.2 e1 e2 hp
        obtain ⟨kn, hkn⟩ : ∃ kn, f.name = some kn := by
          cases hfn : f.name with
          | none => exact absurd hfn (hn.1 f (List.mem_of_getElem? e1))
          | some kn => exact ⟨kn, rfl⟩
        have hf := List.mem_of_getElem? e1
        have hlt := List.sizeOf_lt_of_mem hf
        refine h2 _ (List.mem_map.2 ⟨_, hmem, rfl⟩) .type (.field hf ⟨kn, hkn, ?_⟩ (setVal_refuses f p k (namedAll_mem hn.2.2 _ hf) hck (eachAll_get hs e1 e2) e3))
        simp [hkn]
  | .scalar .., _, e, _, _, _, hr => by simp [Refuses] at hr
  | .list .., _, e, _, _, _, hr => by simp [Refuses] at hr
  | .array .., _, e, _, _, _, hr => by simp [Refuses] at hr
termination_by s => sizeOf s
decreasing_by all_goals first | (simp; done) | (simp; omega)

omit [Runtime] in
theorem refusesAll_of : ∀ {fs : List Schema} {ks : List Elem} {i : Nat} {f : Schema} {k : Elem}, fs[i]? = some f → ks[i]? = some k → Refuses f k → RefusesAll fs ks
  | [], _, i, _, _, h, _, _ => by simp at h
  | _ :: _, [], i, _, _, _, h, _ => by simp at h
  | f :: fs, k :: ks, i, g, l, h1, h2, h3 => by
    rw [RefusesAll]
    cases i with
    | zero => simp only [List.getElem?_cons_zero, Option.some.injEq] at h1 h2; subst h1 h2; exact .inl h3
    | succ i => exact .inr (refusesAll_of (i := i) (by simpa using h1) (by simpa using h2) h3)

omit [Runtime] in
theorem seqSetVal_quiet {setter : PyVal → Except PyErr (Elem × Bool)} {ks : List Elem} (hk : ∀ k ∈ ks, ∀ er, setter (elemValue k) = .error er → er = .type)
    (er : PyErr) : seqSetVal setter (.list (kidValues ks)) ≠ .error er := by
  intro h
  rw [seqSetVal, pyIter] at h
  simp only at h
  cases h2 : memberSetLoop setter (kidValues ks) with
  | error x =>
    have := memberLoop_typeOnly hk h2
    subst this
    rw [h2] at h
    cases h
  | ok r => rw [h2] at h; cases h

theorem setVal_error_refuses : ∀ (s : Schema) (p : Bool) (e : Elem) (er : PyErr), NamedFields s → Conforms s e → EachScalar (fun _ => TakesItsValue) p s e →
    setVal s (elemValue e) = .error er → Refuses s e
  | .scalar h t, p, e, er, hn, hc, hs, hr => by
    cases e <;> simp only [Conforms] at hc
    rename_i n st
    rw [EachScalar] at hs
    obtain ⟨b, hb⟩ := hs
    rw [setVal, elemValue] at hr
    rcases h1 : scalarSet t .fresh st.value with ⟨st', r⟩
    rw [h1] at hb hr
    simp only at hb
    subst hb
    cases hr
  | .dict h mode policy fs, p, e, er, hn, hc, hs, hr => by
    cases e <;> simp only [Conforms] at hc
    rename_i n ks
    rw [NamedFields] at hn
    rw [EachScalar] at hs
    rw [elemValue, C30_tree_raises _ _ _ _ hn.2.1] at hr
    rw [Refuses]
    rcases hr with ⟨h1, _⟩ | ⟨pre, x, post, h1, _, h2⟩ | ⟨l, f, h1, _, h2, hf, hun, _⟩
    · simp [entriesOf] at h1
    · simp only [entriesOf, Option.some.injEq] at h1
      have hx : x ∈ (kidItems ks).map fun p => Entry.pair (.str p.1) p.2 := by rw [h1]; simp
      obtain ⟨q, hq, rfl⟩ := List.mem_map.1 hx
      obtain ⟨i, f, k, e1, e2, e3, rfl⟩ := kidItems_kid hc.2 hq
      obtain ⟨kn, hkn⟩ : ∃ kn, f.name = some kn := by
        cases hfn : f.name with
        | none => exact absurd hfn (hn.1 f (List.mem_of_getElem? e1))
        | some kn => exact ⟨kn, rfl⟩
      cases h2 with
      | unhashable hu => exact hu.elim
      | unknown _ hu _ => exact (hu f (List.mem_of_getElem? e1) kn hkn (by simp [hkn])).elim
      | field hf hsup hset =>
        obtain ⟨gn, hgn, heq⟩ := hsup
        simp only [Entry.pair.injEq, PyVal.str.injEq, hkn, Option.getD_some] at heq
        obtain ⟨rfl, rfl⟩ := heq
        have := same_kidField hn.2.1 e1 hf (hkn.trans hgn.symm)
        subst this
        have hlt := List.sizeOf_lt_of_mem hf
        exact .inr (refusesAll_of e1 e2 (setVal_error_refuses _ p k er (namedAll_mem hn.2.2 _ hf) e3 (eachAll_get hs e1 e2) hset))
    · simp only [entriesOf, Option.some.injEq] at h1
      subst h1
      refine .inl ⟨h2, ?_⟩
      obtain ⟨i, hi⟩ := List.getElem?_of_mem hf
      have hil : i < ks.length := by rw [conformsAll_length hc.2]; exact (List.getElem?_eq_some_iff.1 hi).1
      refine ⟨ks[i], List.getElem_mem hil, ?_⟩
      cases hp : ks[i].present with
      | false => rfl
      | true =>
        obtain ⟨_, hm⟩ := kid_kidItems hc.2 hi (List.getElem?_eq_getElem hil) hp
        obtain ⟨kn, hkn⟩ : ∃ kn, f.name = some kn := by
          cases hfn : f.name with
          | none => exact absurd hfn (hn.1 f hf)
          | some kn => exact ⟨kn, rfl⟩
        refine (hun _ (List.mem_map.2 ⟨_, hm, rfl⟩) (elemValue ks[i]) ⟨kn, hkn, ?_⟩).elim
        simp [hkn]
  | .list h prune max m, p, e, er, hn, hc, hs, hr => by
    cases e <;> simp only [Conforms] at hc
    rename_i n ks
    rw [NamedFields] at hn
    rw [EachScalar] at hs
    rw [setVal, elemValue] at hr
    rcases h1 : seqSetVal (setVal m) (.list (kidValues ks)) with x | ⟨es, b⟩
    · exact (seqSetVal_quiet (fun k hk er => setVal_typeOnly m (p || prune) k er hn (hc.2 k hk) (hs k hk)) _ h1).elim
    · rw [h1] at hr; cases hr
  | .array h prune m, p, e, er, hn, hc, hs, hr => by
    cases e <;> simp only [Conforms] at hc
    rename_i n ks
    rw [NamedFields] at hn
    rw [EachScalar] at hs
    rw [setVal, elemValue] at hr
    rcases h1 : seqSetVal (setVal m) (.list (kidValues ks)) with x | ⟨es, b⟩
    · exact (seqSetVal_quiet (fun k hk er => setVal_typeOnly m false k er hn (hc.2 k hk) (hs k hk)) _ h1).elim
    · rw [h1] at hr; cases hr
termination_by s => sizeOf s
decreasing_by all_goals first | (simp; done) | (simp; omega)

end
end Flatland
