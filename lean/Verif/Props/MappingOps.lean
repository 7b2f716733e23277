import Verif.Spec.MappingOps
import Verif.Props.Mappings
/-! C81: what the operations of Dict and SparseDict do to the children. -/
namespace Flatland
open Flatland.Spec

variable {K V E A : Type} [DecidableEq K]

theorem reachable_full {c : MapClass K V E} (hm : c.mode = .full) (hn : (names c).Nodup) {d : PyDict K E} (hd : Reachable c d) (k : K) :
    (dictGet d k).isSome ↔ k ∈ names c := by
  obtain ⟨ops, rfl⟩ := hd
  exact C28_lookup c hm hn ops k

theorem reachable_sparse {c : MapClass K V E} (hm : c.mode ≠ .full) (hn : (names c).Nodup) {d : PyDict K E} (hd : Reachable c d) :
    (∀ k e, dictGet d k = some e → k ∈ names c) ∧ (dictKeys d).Nodup := by
  obtain ⟨ops, rfl⟩ := hd
  have h := C29_keys_within_schema c hm hn ops
  exact ⟨fun k e hk => h.1 k (dictGet_isSome.1 (by rw [hk]; rfl)), h.2⟩

theorem done_eq (r : Except PyErr Bool) : r.map (fun _ => ()) = done r := by cases r <;> rfl

theorem sameBut_put (d : PyDict K E) (k : K) (e : E) : SameBut k d (dictPut d k e) := by
  intro k' hk
  rw [dictGet_put, if_neg hk]

theorem setItem_sameBut (c : MapClass K V E) (d : PyDict K E) (k : K) (a : Arg V E) : SameBut k d (mapSetItem c d k a).1 := by
  have hself : SameBut k d d := fun _ _ => rfl
  unfold mapSetItem
  repeat' split
  all_goals first
    | exact hself
    | exact sameBut_put _ _ _
    | (simp only [setChild]; exact sameBut_put _ _ _)

theorem fieldFor_of_mem {c : MapClass K V E} (hn : (names c).Nodup) {f : Field K V E} (hf : f ∈ c.fields) : fieldFor c f.name = some f := by
  obtain ⟨g, hg⟩ := fieldFor_mem (c := c) (k := f.name) (List.mem_map.2 ⟨f, hf, rfl⟩)
  rw [hg, field_unique hn (fieldFor_some hg).1 hf (fieldFor_some hg).2]

/-! ### Dict -/

/-- **C81.** Assigning to a field of a Dict sets the field's child, raises iff that raises, and touches no other child; an unknown key
raises TypeError and changes nothing. -/
theorem C81_dict_assign (c : MapClass K V E) (hm : c.mode = .full) (hn : (names c).Nodup) (d : PyDict K E) (hd : Reachable c d) (k : K) (a : Arg V E) :
    (k ∉ names c → mapSetItem c d k a = (d, .error .type)) ∧
    ∀ f ∈ c.fields, f.name = k → ∃ e, dictGet d k = some e ∧ dictGet (mapSetItem c d k a).1 k = some (f.cls.set e a).1 ∧
      (mapSetItem c d k a).2 = done (f.cls.set e a).2 ∧ SameBut k d (mapSetItem c d k a).1 := by
  constructor
  · intro hk
    have hf := fieldFor_none.2 hk
    simp only [mapSetItem, hm, hf]
  · rintro f hf rfl
    have hff := fieldFor_of_mem hn hf
    obtain ⟨e, he⟩ := Option.isSome_iff_exists.1 ((reachable_full hm hn hd f.name).2 (List.mem_map.2 ⟨f, hf, rfl⟩))
    refine ⟨e, he, ?_⟩
    simp only [mapSetItem, hm, hff, he, setChild, done_eq]
    refine ⟨by rw [dictGet_put, if_pos rfl], ?_, sameBut_put _ _ _⟩
    trivial

/-- **C81.** Nothing can be taken out of a Dict or added to it: `del`, `pop`, `popitem`, `clear` and `setdefault` always raise – KeyError from
`del` and `pop` with an unknown key, else TypeError – and change nothing. -/
theorem C81_dict_fixed (c : MapClass K V E) (hm : c.mode = .full) (hn : (names c).Nodup) (d : PyDict K E) (hd : Reachable c d) (k : K) (a : Arg V E) :
    mapDelItem c d k = (d, .error (if k ∈ names c then .type else .key)) ∧ mapPop c d k = (d, .error (if k ∈ names c then .type else .key)) ∧
    mapPopitem c d = (d, .error .type) ∧ mapClear c d = (d, .error .type) ∧ mapSetdefault c d k a = (d, .error .type) := by
  have h := reachable_full hm hn hd k
  simp only [mapDelItem, mapPop, mapPopitem, mapClear, mapSetdefault, hm]
  cases hg : dictGet d k with
  | none =>
    rw [hg] at h
    have hk : k ∉ names c := by simpa using h
    simp [hk]
  | some e =>
    rw [hg] at h
    have hk : k ∈ names c := by simpa using h
    simp [hk]

/-! ### SparseDict -/

/-- **C81.** Assigning to a key of a SparseDict.  An unknown key raises TypeError.  An element of the field's class becomes the child itself.
Any other value is set on the child that is there; if there is none, a child is made of it – and if that raises there still is none.
No other child is touched. -/
theorem C81_sparse_assign (c : MapClass K V E) (hm : c.mode ≠ .full) (hn : (names c).Nodup) (d : PyDict K E) (k : K) :
    (∀ a, k ∉ names c → mapSetItem c d k a = (d, .error .type)) ∧
    (∀ a, SameBut k d (mapSetItem c d k a).1) ∧
    ∀ f ∈ c.fields, f.name = k →
      (∀ x, f.isInstance x = true → dictGet (mapSetItem c d k (.el x)).1 k = some x ∧ (mapSetItem c d k (.el x)).2 = .ok ()) ∧
      (∀ a e, (∀ x, a = .el x → f.isInstance x = false) → dictGet d k = some e →
        dictGet (mapSetItem c d k a).1 k = some (f.cls.set e a).1 ∧ (mapSetItem c d k a).2 = done (f.cls.set e a).2) ∧
      (∀ v, dictGet d k = none → (∀ x, f.cls.make v = .ok x → dictGet (mapSetItem c d k (.val v)).1 k = some x ∧ (mapSetItem c d k (.val v)).2 = .ok ()) ∧
        ∀ er, f.cls.make v = .error er → mapSetItem c d k (.val v) = (d, .error er)) ∧
      (∀ x, f.isInstance x = false → dictGet d k = none →
        (∀ b, (f.cls.set f.cls.blank (.el x)).2 = .ok b →
          dictGet (mapSetItem c d k (.el x)).1 k = some (f.cls.set f.cls.blank (.el x)).1 ∧ (mapSetItem c d k (.el x)).2 = .ok ()) ∧
        ∀ er, (f.cls.set f.cls.blank (.el x)).2 = .error er → mapSetItem c d k (.el x) = (d, .error er)) := by
  have hput : ∀ e : E, dictGet (dictPut d k e) k = some e := fun e => by rw [dictGet_put, if_pos rfl]
  refine ⟨?_, ?_, ?_⟩
  · intro a hk
    have hf := fieldFor_none.2 hk
    cases hmo : c.mode with
    | full => exact absurd hmo hm
    | _ => simp only [mapSetItem, hmo, hf]
  · exact setItem_sameBut c d k
  · rintro f hf rfl
    have hff := fieldFor_of_mem hn hf
    refine ⟨?_, ?_, ?_, ?_⟩
    · intro x hx
      cases hmo : c.mode with
      | full => exact absurd hmo hm
      | _ => cases hg : dictGet d f.name <;> simp [mapSetItem, hmo, hff, hg, hx, hput]
    · intro a e ha hg
      cases hmo : c.mode with
      | full => exact absurd hmo hm
      | _ =>
        cases a with
        | val v => simp [mapSetItem, hmo, hff, hg, setChild, done_eq, hput]
        | el x => simp [mapSetItem, hmo, hff, hg, setChild, done_eq, hput, ha x rfl]
    · intro v hg
      cases hmo : c.mode with
      | full => exact absurd hmo hm
      | _ =>
        refine ⟨?_, ?_⟩ <;> intro x hx <;> simp [mapSetItem, hmo, hff, hg, hx, hput]
    · intro x hx hg
      cases hmo : c.mode with
      | full => exact absurd hmo hm
      | _ =>
        cases hs : f.cls.set f.cls.blank (.el x) with
        | mk e r =>
          cases r with
          | ok b => simp [mapSetItem, hmo, hff, hg, hx, hs, hput]
          | error er => simp [mapSetItem, hmo, hff, hg, hx, hs]

/-- **C81.** `del` and `pop` on a SparseDict take out the child if it is there and – with minimum_fields='required' – optional; `pop` returns it.
Otherwise they raise and change nothing: `pop` KeyError if the key is not there, `del` TypeError for a key that is no field, and KeyError for
a field that is not there (but TypeError if it is a required one), both TypeError for a required child. -/
theorem C81_sparse_remove (c : MapClass K V E) (hm : c.mode ≠ .full) (hn : (names c).Nodup) (d : PyDict K E) (hd : Reachable c d) (k : K) :
    (∀ e, dictGet d k = some e → removable c k e →
      (mapDelItem c d k).2 = .ok () ∧ (mapPop c d k).2 = .ok e ∧ (mapPop c d k).1 = (mapDelItem c d k).1 ∧
      dictGet (mapDelItem c d k).1 k = none ∧ SameBut k d (mapDelItem c d k).1) ∧
    (∀ e, dictGet d k = some e → ¬ removable c k e → mapDelItem c d k = (d, .error .type) ∧ mapPop c d k = (d, .error .type)) ∧
    (dictGet d k = none → mapPop c d k = (d, .error .key) ∧
      (k ∉ names c → mapDelItem c d k = (d, .error .type)) ∧
      ∀ f ∈ c.fields, f.name = k → mapDelItem c d k = (d, .error (if c.mode = .required ∧ f.optional = false then .type else .key))) := by
  obtain ⟨hin, hnd⟩ := reachable_sparse hm hn hd
  have hdel : dictGet (dictDel d k) k = none := by rw [dictGet_del d k k hnd, if_pos rfl]
  have hsame : SameBut k d (dictDel d k) := by intro k' hk'; rw [dictGet_del d k k' hnd, if_neg hk']
  refine ⟨?_, ?_, ?_⟩
  · intro e he hr
    cases hmo : c.mode with
    | full => exact absurd hmo hm
    | sparse =>
      simp only [mapDelItem, mapPop, hmo, he]
      exact ⟨trivial, trivial, trivial, hdel, hsame⟩
    | required =>
      rcases hr with hr | ⟨f, hf, rfl, ho⟩
      · rw [hmo] at hr; cases hr
      · simp only [mapDelItem, mapPop, hmo, he, fieldFor_of_mem hn hf, ho, if_true]
        exact ⟨trivial, trivial, trivial, hdel, hsame⟩
  · intro e he hr
    cases hmo : c.mode with
    | full => exact absurd hmo hm
    | sparse => exact absurd (.inl hmo) hr
    | required =>
      obtain ⟨f, hf⟩ := fieldFor_mem (hin k e he)
      obtain ⟨hfm, hfn⟩ := fieldFor_some hf
      have ho : f.optionalOf e = false := by
        cases h : f.optionalOf e
        · rfl
        · exact absurd (.inr ⟨f, hfm, hfn, h⟩) hr
      simp [mapDelItem, mapPop, hmo, he, hf, ho]
  · intro hg
    refine ⟨by simp [mapPop, hg], ?_, ?_⟩
    · intro hk
      have hf := fieldFor_none.2 hk
      cases hmo : c.mode with
      | full => exact absurd hmo hm
      | _ => simp [mapDelItem, hmo, hg, hf]
    · rintro f hf rfl
      have hff := fieldFor_of_mem hn hf
      cases hmo : c.mode with
      | full => exact absurd hmo hm
      | sparse => simp [mapDelItem, hmo, hg, hff]
      | required => cases ho : f.optional <;> simp [mapDelItem, hmo, hg, hff, ho]

/-- **C81.** `setdefault` on a SparseDict: an unknown key raises TypeError; a child that is not empty is left alone, and its value is
returned; an empty child, or a new one put in, is set to the default, which is returned as it was given – whether or not the child
could take it.  No other child is touched. -/
theorem C81_setdefault (c : MapClass K V E) (hm : c.mode ≠ .full) (hn : (names c).Nodup) (d : PyDict K E) (k : K) (a : Arg V E) :
    (k ∉ names c → mapSetdefault c d k a = (d, .error .type) ∧ setdefaultResult c d k a = .error .type) ∧
    SameBut k d (mapSetdefault c d k a).1 ∧
    ∀ f ∈ c.fields, f.name = k →
      (∀ e, dictGet d k = some e → f.isEmpty e = false → (mapSetdefault c d k a).1 = d ∧ setdefaultResult c d k a = .ok (some e)) ∧
      (∀ e, (dictGet d k = some e ∧ f.isEmpty e = true ∨ dictGet d k = none ∧ e = f.cls.blank) →
        dictGet (mapSetdefault c d k a).1 k = some (f.cls.set e a).1 ∧
        setdefaultResult c d k a = (done (f.cls.set e a).2).map fun _ => none) := by
  have hput : ∀ e : E, dictGet (dictPut d k e) k = some e := fun e => by rw [dictGet_put, if_pos rfl]
  have hself : SameBut k d d := fun _ _ => rfl
  have hstep : mapSetdefault c d k a = match fieldFor c k with
    | .none => (d, .error .type)
    | some f => match dictGet d k with
      | some e => if f.isEmpty e then ((setChild d k f e a).1, (setChild d k f e a).2.map fun _ => ()) else (d, .ok ())
      | .none => ((setChild d k f f.cls.blank a).1, (setChild d k f f.cls.blank a).2.map fun _ => ()) := by
    cases hmo : c.mode with
    | full => exact absurd hmo hm
    | _ => simp only [mapSetdefault, hmo]; rfl
  refine ⟨?_, ?_, ?_⟩
  · intro hk
    have hf := fieldFor_none.2 hk
    rw [hf] at hstep
    simp [setdefaultResult, hstep]
  · rw [hstep]
    cases hf : fieldFor c k with
    | none => exact hself
    | some f =>
      cases hg : dictGet d k with
      | none => exact sameBut_put _ _ _
      | some e =>
        simp only
        split
        · exact sameBut_put _ _ _
        · exact hself
  · rintro f hf rfl
    have hff := fieldFor_of_mem hn hf
    rw [hff] at hstep
    refine ⟨?_, ?_⟩
    · intro e he hne
      rw [he] at hstep
      simp only [hne] at hstep
      simp [setdefaultResult, hstep, hff, he, hne]
    · rintro e (⟨he, hem⟩ | ⟨he, rfl⟩)
      · rw [he] at hstep
        simp only [hem, if_true, setChild] at hstep
        refine ⟨by rw [hstep]; exact hput _, ?_⟩
        simp only [setdefaultResult, hstep, hff, he, hem, if_true]
        cases (f.cls.set e a).2 <;> rfl
      · rw [he] at hstep
        simp only [setChild] at hstep
        refine ⟨by rw [hstep]; exact hput _, ?_⟩
        simp only [setdefaultResult, hstep, hff, he]
        cases (f.cls.set f.cls.blank a).2 <;> rfl

/-- **C81.** `clear` makes a SparseDict as good as new, `popitem` is not implemented. -/
theorem C81_clear (c : MapClass K V E) (hm : c.mode ≠ .full) (d : PyDict K E) :
    mapClear c d = (mapNew c, .ok ()) ∧ mapPopitem c d = (d, .error .notImplemented) := by
  cases hmo : c.mode with
  | full => exact absurd hmo hm
  | _ => simp [mapClear, mapPopitem, mapNew, mapReset, hmo]

/-! ### both -/

/-- an assignment depends on the child at the key only -/
theorem setItem_local (c : MapClass K V E) (d d' : PyDict K E) (k : K) (a : Arg V E) (h : dictGet d k = dictGet d' k) :
    dictGet (mapSetItem c d k a).1 k = dictGet (mapSetItem c d' k a).1 k ∧ (mapSetItem c d k a).2 = (mapSetItem c d' k a).2 := by
  have hput : ∀ (d : PyDict K E) (e : E), dictGet (dictPut d k e) k = some e := fun d e => by rw [dictGet_put, if_pos rfl]
  unfold mapSetItem
  rw [← h]
  cases hmo : c.mode <;> cases hf : fieldFor c k <;> cases hg : dictGet d k <;> cases a <;> simp only [setChild]
  all_goals (repeat' split)
  all_goals (try simp only [hput, ← h, hg, and_self])

/-- **C81.** `update` that returns has done to each child what `update` with only the pairs for its key does; so the pairs for different keys
do not matter to each other, nor does their order. -/
theorem C81_update_independent (c : MapClass K V E) (items : List (K × Arg V E)) : ∀ (d : PyDict K E),
    (updateLoop c d items).2 = .ok () →
    ∀ k, dictGet (updateLoop c d items).1 k = dictGet (updateLoop c d (pairsFor k items)).1 k ∧ (updateLoop c d (pairsFor k items)).2 = .ok () := by
  have gen : ∀ (items : List (K × Arg V E)) (d d' : PyDict K E) (k : K), dictGet d k = dictGet d' k → (updateLoop c d items).2 = .ok () →
      dictGet (updateLoop c d items).1 k = dictGet (updateLoop c d' (pairsFor k items)).1 k ∧ (updateLoop c d' (pairsFor k items)).2 = .ok () := by
    intro items
    induction items with
    | nil => intro d d' k h _; exact ⟨h, rfl⟩
    | cons p items ih =>
      obtain ⟨k0, a⟩ := p
      intro d d' k h hok
      rw [updateLoop] at hok ⊢
      cases hs : mapSetItem c d k0 a with
      | mk d1 r =>
        cases r with
        | error er => rw [hs] at hok; simp at hok
        | ok u =>
          rw [hs] at hok
          simp only at hok ⊢
          by_cases hk : k0 = k
          · subst hk
            have hl := setItem_local c d d' k0 a h
            rw [hs] at hl
            simp only [pairsFor, List.filter_cons, decide_true, if_true]
            rw [updateLoop]
            cases hs' : mapSetItem c d' k0 a with
            | mk d2 r2 =>
              rw [hs'] at hl
              simp only at hl
              rw [← hl.2]
              exact ih d1 d2 k0 hl.1 hok
          · have hsame := setItem_sameBut c d k0 a k (fun e => hk e.symm)
            rw [hs] at hsame
            simp only [pairsFor, List.filter_cons, hk, decide_false, Bool.false_eq_true, if_false]
            exact ih d1 d' k (by rw [hsame, h]) hok
  intro d hok k
  exact gen items d d k rfl hok

/-- **C81.** `update` that raises has stopped at a pair whose assignment raises: the pairs before it have been assigned. -/
theorem C81_update_raises (c : MapClass K V E) (items : List (K × Arg V E)) : ∀ (d d' : PyDict K E) (er : PyErr), updateLoop c d items = (d', .error er) →
    ∃ before k a after d1, items = before ++ (k, a) :: after ∧ updateLoop c d before = (d1, .ok ()) ∧ mapSetItem c d1 k a = (d', .error er) := by
  induction items with
  | nil => intro d d' er h; simp [updateLoop] at h
  | cons p items ih =>
    obtain ⟨k, a⟩ := p
    intro d d' er h
    rw [updateLoop] at h
    cases hs : mapSetItem c d k a with
    | mk d1 r =>
      rw [hs] at h
      cases r with
      | error er' => exact ⟨[], k, a, items, d, rfl, rfl, by rw [hs]; exact h⟩
      | ok u =>
        obtain ⟨b, k', a', after, d2, h1, h2, h3⟩ := ih d1 d' er h
        refine ⟨(k, a) :: b, k', a', after, d2, by rw [h1]; rfl, ?_, h3⟩
        rw [updateLoop, hs]
        exact h2

/-- **C81.** The keyword arguments of `update` come after its positional argument; an argument that gives no pairs changes nothing. -/
theorem C81_update (c : MapClass K V E) (d : PyDict K E) (items kwargs : List (K × Arg V E)) (er : PyErr) :
    mapUpdate c d (.seq items none) kwargs = updateLoop c d (items ++ kwargs) ∧
    (∀ d', updateLoop c d items = (d', .ok ()) → mapUpdate c d (.seq items (some er)) kwargs = (d', .error er)) ∧
    mapUpdate c d (.refused er) kwargs = (d, .error er) := by
  refine ⟨?_, ?_, rfl⟩
  · simp only [mapUpdate]
    induction items generalizing d with
    | nil => simp [updateLoop]
    | cons p items ih =>
      obtain ⟨k, a⟩ := p
      rw [List.cons_append, updateLoop, updateLoop]
      cases hs : mapSetItem c d k a with
      | mk d1 r =>
        cases r with
        | error er' => rfl
        | ok u => exact ih d1
  · intro d' h
    simp [mapUpdate, h]

/-- **C81.** `get` gives the child that is there and raises KeyError otherwise, whatever the default; `may_contain` tells whether the schema has
such a field. -/
theorem C81_get (c : MapClass K V E) (hn : (names c).Nodup) (d : PyDict K E) (hd : Reachable c d) (k : K) (dflt : Option V) :
    (∀ e, mapGetChild d k dflt = .ok e ↔ dictGet d k = some e) ∧ (mapGetChild d k dflt = .error .key ↔ dictGet d k = none) ∧
    (mayContain c d k = true ↔ k ∈ names c) := by
  refine ⟨?_, ?_, ?_⟩
  · intro e; unfold mapGetChild; cases dictGet d k <;> simp
  · unfold mapGetChild; cases dictGet d k <;> simp
  · cases hmo : c.mode with
    | full =>
      rw [← reachable_full hmo hn hd k]
      simp [mayContain, hmo]
    | _ =>
      have hm : c.mode ≠ .full := by rw [hmo]; simp
      have hin := (reachable_sparse hm hn hd).1 k
      simp only [mayContain, hmo, Bool.or_eq_true]
      constructor
      · rintro (h | h)
        · obtain ⟨e, he⟩ := Option.isSome_iff_exists.1 h
          exact hin e he
        · by_cases hk : k ∈ names c
          · exact hk
          · rw [fieldFor_none.2 hk] at h; cases h
      · intro hk
        obtain ⟨f, hf⟩ := fieldFor_mem hk
        exact .inr (by rw [hf]; rfl)

section examples
example : Reachable (exMap .required) [('a', 0, false), ('b', 5, true)] := ⟨[.setItem 'b' (.val 5)], by decide⟩
-- setdefault fills the empty child, and leaves the other
example : (mapSetdefault (exMap .required) [('a', 0, false), ('b', 5, true)] 'a' (.val 3)).1 = [('a', 3, false), ('b', 5, true)] := by decide
example : (mapSetdefault (exMap .required) [('a', 0, false), ('b', 5, true)] 'b' (.val 3)).1 = [('a', 0, false), ('b', 5, true)] := by decide
-- a default that the child refuses is returned all the same
example : (mapSetdefault (exMap .sparse) [] 'b' (.val 100)).1 = [('b', 0, true)] ∧
    (match setdefaultResult (exMap .sparse) [] 'b' (.val 100) with | .ok none => true | _ => false) = true := by decide
-- del of the required child is refused, of the optional one not
example : (mapDelItem (exMap .required) [('a', 0, false), ('b', 5, true)] 'a').1 = [('a', 0, false), ('b', 5, true)] ∧
    (mapDelItem (exMap .required) [('a', 0, false), ('b', 5, true)] 'b').1 = [('a', 0, false)] := by decide
example : removable (exMap .required) 'b' (5, true) ∧ ¬ removable (exMap .required) 'a' (0, false) := by
  constructor
  · exact .inr ⟨exField 'b' true, by simp [exMap], rfl, rfl⟩
  · rintro (h | ⟨f, hf, hn, ho⟩)
    · cases h
    · simp only [exMap, List.mem_cons, List.not_mem_nil, or_false] at hf
      rcases hf with rfl | rfl
      · simp [exField] at ho
      · simp [exField] at hn
-- an update that returns, and one that stops
example : updateLoop (exMap .sparse) [] [('b', .val 5), ('a', .val 1), ('b', .val 6)] = ([('b', 6, true), ('a', 1, false)], .ok ()) := by rfl
example : updateLoop (exMap .sparse) [] [('b', .val 5), ('z', .val 1), ('b', .val 6)] = ([('b', 5, true)], .error .type) := by rfl
end examples

end Flatland
