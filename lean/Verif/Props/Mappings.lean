import Verif.Proofs.Mappings
/-! C28-C31: Dict, SparseDict, and moving selected keys. -/
namespace Flatland
open Flatland.Spec

variable {K V E A : Type} [DecidableEq K]

/-! ## C28 -/

/-- C28. Whatever operations are applied to a Dict, successful or not, its keys are its schema's field names (in schema order). -/
theorem C28_keys_never_change (c : MapClass K V E) (hm : c.mode = .full) (hn : (names c).Nodup) (ops : List (MapOp K V E)) :
    dictKeys (mapHistory c ops) = names c := by
  have : ∀ (ops : List (MapOp K V E)) (d : PyDict K E), FullKeys c d → FullKeys c (ops.foldl (mapStep c) d) := by
    intro ops
    induction ops with
    | nil => intro d h; exact h
    | cons op ops ih => intro d h; exact ih _ (fullKeys_step hm h op)
  exact this ops _ (fullKeys_new hm hn)

/-- C28. So every field can always be read, and no other key. -/
theorem C28_lookup (c : MapClass K V E) (hm : c.mode = .full) (hn : (names c).Nodup) (ops : List (MapOp K V E)) (k : K) :
    (dictGet (mapHistory c ops) k).isSome ↔ k ∈ names c := by
  rw [dictGet_isSome, C28_keys_never_change c hm hn]

/-! ## C29 -/

/-- C29. Whatever operations are applied to a SparseDict, its keys are field names of the schema, without repetition. -/
theorem C29_keys_within_schema (c : MapClass K V E) (hm : c.mode ≠ .full) (hn : (names c).Nodup) (ops : List (MapOp K V E)) :
    (∀ k ∈ dictKeys (mapHistory c ops), k ∈ names c) ∧ (dictKeys (mapHistory c ops)).Nodup := by
  have : ∀ (ops : List (MapOp K V E)) (d : PyDict K E), SparseInv c false d → SparseInv c false (ops.foldl (mapStep c) d) := by
    intro ops
    induction ops with
    | nil => intro d h; exact h
    | cons op ops ih => intro d h; exact ih _ (sparse_step hm hn (by simp) h op (by simp))
  have h := this ops _ (sparse_reset hm hn (by simp) [])
  exact ⟨h.within, h.nodup⟩

/-- C29. With minimum_fields='required', every non-optional field stays present, as long as no operation makes an instance whose
`optional` differs from its field's – neither an element put in by assignment nor a change of the attribute. -/
theorem C29_required_stay (c : MapClass K V E) (hm : c.mode = .required) (hn : (names c).Nodup) (ho : ∀ f ∈ c.fields, OptionalFixed f)
    (ops : List (MapOp K V E)) (hops : ∀ op ∈ ops, KeepsOptional c op) (f : Field K V E) (hf : f ∈ c.fields) (hreq : f.optional = false) :
    f.name ∈ dictKeys (mapHistory c ops) := by
  have hm' : c.mode ≠ .full := by rw [hm]; simp
  have : ∀ (ops : List (MapOp K V E)), (∀ op ∈ ops, KeepsOptional c op) → ∀ (d : PyDict K E),
      SparseInv c true d → SparseInv c true (ops.foldl (mapStep c) d) := by
    intro ops
    induction ops with
    | nil => intro _ d h; exact h
    | cons op ops ih =>
      intro hops d h
      exact ih (fun op hop => hops op (by simp [hop])) _ (sparse_step hm' hn (fun _ => ho) h op fun _ => hops op (by simp))
  exact (this ops hops _ (sparse_reset hm' hn (fun _ => ho) [])).needed rfl hm f hf hreq

section examples

/-- a field whose elements are a number and their `optional`; values from 100 on are refused; 13 raises -/
def exField (name : Char) (optional : Bool) : Field Char Nat (Nat × Bool) where
  name := name
  optional := optional
  cls := {
    blank := (0, optional)
    make := fun v => if v = 13 then .error .value else .ok (v, optional)
    set := fun e a => match a with
      | .val v => if v = 13 then (e, .error .value) else if v < 100 then ((v, e.2), .ok true) else ((0, e.2), .ok false)
      | .el x => ((x.1, e.2), .ok true)
    eq := fun a b => a.1 == b.1 }
  isInstance := fun _ => true
  optionalOf := Prod.snd
  isEmpty := fun e => e.1 == 0
  setDefault := fun e => ((7, e.2), .ok ())
  fromDefaults := .ok (7, optional)

def exMap (m : MapMode) : MapClass Char Nat (Nat × Bool) where
  fields := [exField 'a' false, exField 'b' true]
  mode := m
  policy := .subset
  default := none

theorem exField_fixed (n : Char) (o : Bool) : OptionalFixed (exField n o) where
  blank := rfl
  make v e h := by
    simp only [exField] at h ⊢
    split at h
    · cases h
    · cases h; rfl
  set e a := by
    cases a with
    | el x => rfl
    | val v => simp only [exField]; split <;> try split
               all_goals rfl
  setDefault e := rfl
  fromDefaults e h := by cases h; rfl

-- C28: a failing set, a refused deletion and an assignment
example : mapHistory (exMap .full) [.set (.seq [('a', .val 1), ('z', .val 2)] none) .subset, .delItem 'a', .setItem 'b' (.val 5), .clear] =
    [('a', 1, false), ('b', 5, true)] := by decide
example : (names (exMap .full)).Nodup := by decide
-- C29: the required field stays, the optional one goes
example : mapHistory (exMap .required) [.setItem 'b' (.val 5), .delItem 'b', .delItem 'a', .pop 'a', .setItem 'z' (.val 1)] =
    [('a', 0, false)] := by decide
example : ∀ op ∈ ([.setItem 'b' (.val 5), .delItem 'b', .setItem 'a' (.el (3, false))] : List (MapOp Char Nat (Nat × Bool))),
    KeepsOptional (exMap .required) op := by
  intro op hop
  simp only [List.mem_cons, List.not_mem_nil, or_false] at hop
  rcases hop with rfl | rfl | rfl
  · trivial
  · trivial
  · intro f hf hname _
    simp only [exMap, List.mem_cons, List.not_mem_nil, or_false] at hf
    rcases hf with rfl | rfl
    · rfl
    · simp [exField] at hname

/-- C29, the exception: an element with `optional=True` assigned to a required field can be deleted, leaving the field missing. -/
theorem C29_optional_instance_deletable :
    ∃ (c : MapClass Char Nat (Nat × Bool)) (ops : List (MapOp Char Nat (Nat × Bool))) (f : Field Char Nat (Nat × Bool)),
      c.mode = .required ∧ (names c).Nodup ∧ (∀ f ∈ c.fields, OptionalFixed f) ∧ f ∈ c.fields ∧ f.optional = false ∧
        f.name ∉ dictKeys (mapHistory c ops) := by
  refine ⟨exMap .required, [.setItem 'a' (.el (3, true)), .delItem 'a'], exField 'a' false, rfl, by decide, ?_, ?_, rfl, by decide⟩
  · intro f hf
    simp only [exMap, List.mem_cons, List.not_mem_nil, or_false] at hf
    rcases hf with rfl | rfl <;> exact exField_fixed _ _
  · exact List.mem_cons_self

end examples

/-! ## C30 -/

omit [DecidableEq K] in
theorem autoIn_iff (m : MapMode) (f : Field K V E) : autoIn m f = true ↔ m = .full ∨ m = .required ∧ f.optional = false := by
  cases m <;> simp [autoIn]

/-- C30. A `set` whose keys the policy allows, and none of whose values makes a child raise, gives every field that is always
present or for which values are supplied a new child, set with the supplied values in order (none: a blank child); other fields are
absent; True is returned iff every child's `set` succeeded.  What the mapping held before is irrelevant. -/
theorem C30_set (c : MapClass K V E) (hn : (names c).Nodup) (d : PyDict K E) (hd : ∀ k ∈ dictKeys d, k ∈ names c)
    (items : List (K × Arg V E)) (pol : MapPolicy)
    (out : Field K V E → E) (res : Field K V E → Bool)
    (hall : ∀ f ∈ c.fields, setAll f.cls f.cls.blank (valuesOf items f.name) = (out f, .ok (res f)))
    (hknown : pol ≠ .duck → ∀ p ∈ items, p.1 ∈ names c)
    (hstrict : pol = .strict → ∀ k ∈ names c, k ∈ items.map Prod.fst) :
    (mapSet c d (.seq items none) pol).2 = .ok (c.fields.all res) ∧
      (∀ f ∈ c.fields, dictGet (mapSet c d (.seq items none) pol).1 f.name =
        if (c.mode = .full ∨ c.mode = .required ∧ f.optional = false) ∨ f.name ∈ items.map Prod.fst then some (out f) else none) ∧
      ∀ k ∈ dictKeys (mapSet c d (.seq items none) pol).1, k ∈ names c := by
  simp only [← autoIn_iff]
  have hv : ∀ k, valuesOf items k ≠ [] ↔ k ∈ items.map Prod.fst := by
    intro k
    simp only [valuesOf, ne_eq, List.filterMap_eq_nil_iff, List.mem_map]
    constructor
    · intro h
      apply Classical.byContradiction
      intro h'
      apply h
      intro p hp
      by_cases hk : p.1 = k
      · exact absurd ⟨p, hp, hk⟩ h'
      · simp [hk]
    · rintro ⟨p, hp, rfl⟩ h
      have := h p hp
      simp at this
  obtain ⟨d', seen', h1, h2, h3, h4⟩ := setLoop_ok hn pol items (mapReset c d) [] true out res
    (by
      intro f hf
      have hg := mapReset_get hn d hf
      rw [hg]
      cases autoIn c.mode f <;> exact hall f hf) hknown
  have hfin : mapSet c d (.seq items none) pol = (d', .ok (c.fields.all res)) := by
    simp only [mapSet, h1]
    rw [if_neg]
    · simp
    · rintro ⟨hp, hne⟩
      apply hne
      rw [List.all_eq_true]
      intro f hf
      have hk : f.name ∈ names c := List.mem_map.2 ⟨f, hf, rfl⟩
      rw [List.contains_iff_mem, h3]
      exact .inr ⟨hk, (hv _).2 (hstrict hp _ hk)⟩
  rw [hfin]
  refine ⟨rfl, ?_, ?_⟩
  · intro f hf
    rw [h2 f hf, mapReset_get hn d hf]
    simp only [← hv f.name]
    cases autoIn c.mode f <;> simp
  · intro k hk
    rcases h4 k hk with h | h
    · revert h
      have : ∀ d0 : PyDict K E, (∀ k ∈ dictKeys d0, k ∈ names c) → k ∈ dictKeys (resetLoop c.mode c.fields d0) → k ∈ names c := by
        intro d0 h0 h
        rcases (resetLoop_mem _ _ _ _).1 h with h | ⟨f, hf, rfl, _⟩
        · exact h0 k h
        · exact List.mem_map.2 ⟨f, hf, rfl⟩
      unfold mapReset
      split
      · exact this d hd
      · exact this [] (by simp [dictKeys])
    · exact h

/-- C30. For the common case, a dict (no key twice) given to a Dict: each supplied field becomes what `set` makes of a blank child,
each other field a blank child, and the result is True iff every child's `set` succeeded. -/
theorem C30_set_dict (c : MapClass K V E) (hm : c.mode = .full) (hn : (names c).Nodup) (hr : ChildrenNeverRaise c) (ops : List (MapOp K V E))
    (items : List (K × Arg V E)) (hitems : (items.map Prod.fst).Nodup) (pol : MapPolicy)
    (hknown : pol ≠ .duck → ∀ p ∈ items, p.1 ∈ names c) (hstrict : pol = .strict → ∀ k ∈ names c, k ∈ items.map Prod.fst) :
    (∀ f ∈ c.fields, dictGet (mapSet c (mapHistory c ops) (.seq items none) pol).1 f.name =
      match dictGet items f.name with
      | some a => some (f.cls.set f.cls.blank a).1
      | none => some f.cls.blank) ∧
    ∃ b, (mapSet c (mapHistory c ops) (.seq items none) pol).2 = .ok b ∧
      (b = true ↔ ∀ f ∈ c.fields, ∀ a, dictGet items f.name = some a → (f.cls.set f.cls.blank a).2 = .ok true) := by
  have hv : ∀ k, valuesOf items k = match dictGet items k with | some a => [a] | none => [] := by
    intro k
    clear hknown hstrict
    induction items with
    | nil => rfl
    | cons p items ih =>
      obtain ⟨k', a⟩ := p
      simp only [List.map_cons, List.nodup_cons] at hitems
      have hi := ih hitems.2
      simp only [valuesOf, List.filterMap_cons, dictGet] at hi ⊢
      by_cases hk : k' = k
      · subst hk
        have : dictGet items k' = none := dictGet_none.2 hitems.1
        rw [this] at hi
        simp only [if_true, hi]
      · simp only [hk, if_false, hi]
  let out : Field K V E → E := fun f => (setAll f.cls f.cls.blank (valuesOf items f.name)).1
  let res : Field K V E → Bool := fun f => match (setAll f.cls f.cls.blank (valuesOf items f.name)).2 with | .ok b => b | .error _ => false
  have hall : ∀ f ∈ c.fields, setAll f.cls f.cls.blank (valuesOf items f.name) = (out f, .ok (res f)) := by
    intro f hf
    obtain ⟨b, hb⟩ := setAll_ok (hr f hf) f.cls.blank (valuesOf items f.name)
    simp only [out, res]
    rw [hb]
    exact Prod.ext rfl hb
  have hd : ∀ k ∈ dictKeys (mapHistory c ops), k ∈ names c := by
    rw [C28_keys_never_change c hm hn]; exact fun _ h => h
  obtain ⟨h1, h2, _⟩ := C30_set c hn (mapHistory c ops) hd items pol out res hall hknown hstrict
  constructor
  · intro f hf
    rw [h2 f hf, hm]
    simp only [autoIn, true_or, if_true, out, hv]
    cases dictGet items f.name with
    | none => rfl
    | some a =>
      simp only [setAll]
      cases f.cls.set f.cls.blank a with
      | mk e r => cases r <;> rfl
  · refine ⟨_, h1, ?_⟩
    rw [List.all_eq_true]
    constructor
    · intro h f hf a ha
      have := h f hf
      simp only [res, hv, ha, setAll] at this
      obtain ⟨b, hb⟩ := hr f hf f.cls.blank a
      revert this hb
      cases f.cls.set f.cls.blank a with
      | mk e r => cases r <;> simp +contextual
    · intro h f hf
      have := h f hf
      simp only [res, hv]
      cases ha : dictGet items f.name with
      | none => rfl
      | some a =>
        have := this a ha
        revert this
        simp only [setAll]
        cases f.cls.set f.cls.blank a with
        | mk e r => cases r <;> simp

/-- C30. A key the schema does not know makes a policy other than 'duck' raise KeyError. -/
theorem C30_unknown_key (c : MapClass K V E) (hr : ChildrenNeverRaise c) (d : PyDict K E) (items : List (K × Arg V E)) (fails : Option PyErr)
    (pol : MapPolicy) (hp : pol ≠ .duck) (h : ∃ p ∈ items, p.1 ∉ names c) :
    (mapSet c d (.seq items fails) pol).2 = .error .key := by
  have := setLoop_unknown hr hp items h (mapReset c d) [] true
  simp only [mapSet]
  cases hs : setLoop c pol (mapReset c d) [] true items with
  | mk d' r =>
    rw [hs] at this
    simp only at this
    rw [this]

/-- C30. With 'strict', all keys being known, a missing one raises TypeError. -/
theorem C30_missing_key (c : MapClass K V E) (hn : (names c).Nodup) (hr : ChildrenNeverRaise c) (d : PyDict K E) (items : List (K × Arg V E))
    (hknown : ∀ p ∈ items, p.1 ∈ names c) (hmiss : ∃ k ∈ names c, k ∉ items.map Prod.fst) :
    (mapSet c d (.seq items none) .strict).2 = .error .type := by
  let cur : Field K V E → E := fun f => (dictGet (mapReset c d) f.name).getD f.cls.blank
  let out : Field K V E → E := fun f => (setAll f.cls (cur f) (valuesOf items f.name)).1
  let res : Field K V E → Bool := fun f => match (setAll f.cls (cur f) (valuesOf items f.name)).2 with | .ok b => b | .error _ => false
  have hall : ∀ f ∈ c.fields, setAll f.cls (cur f) (valuesOf items f.name) = (out f, .ok (res f)) := by
    intro f hf
    obtain ⟨b, hb⟩ := setAll_ok (hr f hf) (cur f) (valuesOf items f.name)
    simp only [out, res]
    rw [hb]
    exact Prod.ext rfl hb
  obtain ⟨d', seen', h1, _, h3, _⟩ := setLoop_ok hn .strict items (mapReset c d) [] true out res hall (fun _ => hknown)
  simp only [mapSet, h1]
  rw [if_pos]
  refine ⟨trivial, ?_⟩
  rw [List.all_eq_true]
  intro h
  obtain ⟨k, hk, hnot⟩ := hmiss
  obtain ⟨f, hf, rfl⟩ := List.mem_map.1 hk
  have := h f hf
  rw [List.contains_iff_mem, h3] at this
  rcases this with h | ⟨_, h⟩
  · cases h
  · apply h
    simp only [valuesOf, List.filterMap_eq_nil_iff]
    intro p hp
    have : p.1 ≠ f.name := fun h => hnot (List.mem_map.2 ⟨p, hp, h⟩)
    simp [this]

/-- C30. With 'duck', no key makes `set` raise: the unknown ones have no effect at all. -/
theorem C30_duck_ignores (c : MapClass K V E) (d : PyDict K E) (items : List (K × Arg V E)) (fails : Option PyErr) :
    mapSet c d (.seq items fails) .duck = mapSet c d (.seq (items.filter fun p => p.1 ∈ names c) fails) .duck := by
  have : ∀ (items : List (K × Arg V E)) d seen conv,
      setLoop c .duck d seen conv items = setLoop c .duck d seen conv (items.filter fun p => p.1 ∈ names c) := by
    intro items
    induction items with
    | nil => intros; rfl
    | cons p items ih =>
      intro d seen conv
      obtain ⟨k, a⟩ := p
      rw [List.filter_cons]
      cases hf : fieldFor c k with
      | none =>
        have hk := fieldFor_none.1 hf
        rw [setLoop, hf]
        simp [hk, ih]
      | some f =>
        obtain ⟨h1, h2⟩ := fieldFor_some hf
        have hk : k ∈ names c := List.mem_map.2 ⟨f, h1, h2⟩
        simp only [hk, decide_true, if_true]
        rw [setLoop, setLoop, hf]
        simp only
        split
        · rfl
        · exact ih _ _ _
  simp only [mapSet, this items]

/-- C30. An object that is no mapping, sequence or iterator of pairs is refused before anything changes. -/
theorem C30_refused_changes_nothing (c : MapClass K V E) (d : PyDict K E) (er : PyErr) (pol : MapPolicy) :
    mapSet c d (.refused er) pol = (d, .error er) := rfl

section examples
-- set: 'b' is refused by its child and stays blank, 'a' is set
example : mapSet (exMap .full) [('a', 9, false), ('b', 8, true)] (.seq [('b', .val 200), ('a', .val 5)] none) .strict =
    ([('a', 5, false), ('b', 0, true)], .ok false) := by rfl
-- a key twice: set twice, in order
example : mapSet (exMap .sparse) [('b', 8, true)] (.seq [('a', .val 200), ('a', .val 5)] none) .subset =
    ([('a', 5, false)], .ok false) := by rfl
example : (mapSet (exMap .full) [] (.seq [('a', .val 5), ('z', .val 1)] none) .subset).2 = .error .key := by rfl
example : (mapSet (exMap .full) [] (.seq [('a', .val 5)] none) .strict).2 = .error .type := by rfl
example : (mapSet (exMap .full) [] (.seq [('a', .val 5), ('z', .val 1)] none) .duck).2 = .ok true := by rfl
-- the hypotheses of C30_set for this field list, with the results of the children
example : ∀ f ∈ (exMap .full).fields, setAll f.cls f.cls.blank (valuesOf [('b', .val 200), ('a', .val 5)] f.name) =
    (if f.name = 'a' then (5, false) else (0, true), .ok (f.name == 'a')) := by
  intro f hf
  simp only [exMap, List.mem_cons, List.not_mem_nil, or_false] at hf
  rcases hf with rfl | rfl <;> rfl
end examples

/-! ## C31 -/

/-- C31. `keyslice_pairs` yields, in order, what each pair is emitted as (`Spec.emitted`), and nothing else; giving both `include`
and `omit` is a TypeError. -/
theorem C31_keyslice (s : Selection K) (pairs : List (K × A)) :
    keyslice s pairs = if s.included ≠ [] ∧ s.omitted ≠ [] then .error .type else .ok (pairs.filterMap (emitted s)) := by
  unfold keyslice
  rw [keysliceLoop_emitted]
  cases s.included <;> cases s.omitted <;> simp

/-- C31. Read as sets of pairs: a pair comes out iff it is a renamed input pair under its new name, or an input pair under its
(transformed) name that is not renamed and is included – or, without `include`, is not omitted. -/
theorem C31_selects (s : Selection K) (pairs out : List (K × A)) (h : keyslice s pairs = .ok out) (k : K) (v : A) :
    (k, v) ∈ out ↔ ∃ k0, (k0, v) ∈ pairs ∧
      (dictGet s.rename (cmpKey s k0) = some k ∨
        (dictGet s.rename (cmpKey s k0) = none ∧ k = cmpKey s k0 ∧
          selected s k)) := by
  rw [C31_keyslice] at h
  split at h
  · cases h
  · cases h
    simp only [List.mem_filterMap, Prod.exists]
    constructor
    · rintro ⟨k0, v0, hmem, he⟩
      unfold emitted at he
      split at he
      · rename_i n hn
        cases he
        exact ⟨k0, hmem, .inl hn⟩
      · rename_i hn
        split at he
        · rename_i hc
          cases he
          exact ⟨k0, hmem, .inr ⟨hn, rfl, hc⟩⟩
        · cases he
    · rintro ⟨k0, hmem, hr | ⟨hr, rfl, hc⟩⟩
      · exact ⟨k0, v, hmem, by simp [emitted, hr]⟩
      · refine ⟨k0, v, hmem, ?_⟩
        simp only [emitted, hr]
        rw [if_pos hc]

/-- C31. An empty `include` is no selection of nothing: everything comes out. -/
theorem C31_empty_include_selects_all (pairs : List (K × A)) : keyslice { included := [] } pairs = .ok pairs := by
  rw [C31_keyslice]
  simp only [ne_eq, not_true_eq_false, false_and, if_false]
  congr 1
  induction pairs with
  | nil => rfl
  | cons p ps ih => simp [emitted, cmpKey, dictGet, selected, ih]

/-- C31. `slice`: a key of the result has the value of the last selected child emitted under it. -/
theorem C31_slice (valueOf : E → A) (d : PyDict K E) (s : Selection K) (hs : s.included = [] ∨ s.omitted = []) :
    ∃ r, mapSlice valueOf d s = .ok r ∧ (dictKeys r).Nodup ∧ ∀ k v, dictGet r k = some v ↔
      ∃ l rest, (d.map fun p => (p.1, valueOf p.2)).filterMap (emitted s) = l ++ (k, v) :: rest ∧ ∀ p ∈ rest, p.1 ≠ k := by
  unfold mapSlice
  rw [C31_keyslice, if_neg (by rcases hs with h | h <;> simp [h])]
  exact ⟨_, rfl, dictOf_nodup _, fun k v => dictOf_get _ k v⟩

/-- C31. `slice` without renaming and key function is the restriction of the values to the selected keys. -/
theorem C31_slice_plain (valueOf : E → A) (d : PyDict K E) (hd : (dictKeys d).Nodup) (s : Selection K) (hr : s.rename = []) (hk : s.key = none)
    (hs : s.included = [] ∨ s.omitted = []) :
    ∃ r, mapSlice valueOf d s = .ok r ∧ ∀ k, dictGet r k =
      if selected s k then (dictGet d k).map valueOf else none := by
  obtain ⟨r, h1, _, h2⟩ := C31_slice valueOf d s hs
  refine ⟨r, h1, ?_⟩
  intro k
  have hem : ∀ p : K × A, emitted s p = if selected s p.1 then some p else none := by
    intro p
    simp [emitted, cmpKey, hr, hk, dictGet]
  have hmap : (d.map fun p => (p.1, valueOf p.2)).filterMap (emitted s) =
      (d.map fun p => (p.1, valueOf p.2)).filter fun p =>
        decide (selected s p.1) := by
    rw [show emitted s = (fun p : K × A => if selected s p.1 then some p else none)
      from funext hem]
    generalize (d.map fun p => (p.1, valueOf p.2)) = l
    induction l with
    | nil => rfl
    | cons p l ih =>
      rw [List.filterMap_cons, List.filter_cons]
      by_cases hc : selected s p.1
      · rw [if_pos hc]; simp only [hc, decide_true, if_true, ih]
      · rw [if_neg hc]; simp only [hc, decide_false, Bool.false_eq_true, if_false, ih]
  have hkeys : (((d.map fun p => (p.1, valueOf p.2)).filter fun p =>
      decide (selected s p.1)).map Prod.fst).Nodup := by
    apply (List.filter_sublist.map Prod.fst).nodup
    simpa [dictKeys, Function.comp_def] using hd
  apply Option.ext
  intro v
  rw [h2, hmap]
  have hdget : ∀ (d : PyDict K E), (dictKeys d).Nodup → ∀ v, (dictGet d k).map valueOf = some v ↔ ∃ e, (k, e) ∈ d ∧ valueOf e = v := by
    intro d
    induction d with
    | nil => intro _ v; simp [dictGet]
    | cons p d ih =>
      obtain ⟨k', e⟩ := p
      intro hd v
      simp only [dictKeys, List.map_cons, List.nodup_cons] at hd
      simp only [dictGet, List.mem_cons, Prod.mk.injEq]
      by_cases hkk : k' = k
      · subst hkk
        simp only [if_true, Option.map_some, Option.some.injEq]
        constructor
        · intro h; exact ⟨e, .inl ⟨trivial, rfl⟩, h⟩
        · rintro ⟨e', ⟨_, rfl⟩ | hm, rfl⟩
          · rfl
          · exact absurd (List.mem_map.2 ⟨_, hm, rfl⟩) hd.1
      · simp only [hkk, if_false, ih hd.2, show k ≠ k' from fun h => hkk h.symm, false_and, false_or]
  constructor
  · rintro ⟨l, rest, heq, _⟩
    have hm : (k, v) ∈ ((d.map fun p => (p.1, valueOf p.2)).filter fun p =>
        decide (selected s p.1)) := by rw [heq]; simp
    rw [List.mem_filter] at hm
    have hc : selected s k := by simpa using hm.2
    rw [if_pos hc, hdget d hd]
    obtain ⟨p, hp, hpe⟩ := List.mem_map.1 hm.1
    simp at hpe
    exact ⟨p.2, by rw [← hpe.1]; exact hp, hpe.2⟩
  · intro h
    split at h
    · rename_i hc
      obtain ⟨e, he, rfl⟩ := (hdget d hd v).1 h
      have hm : (k, valueOf e) ∈ ((d.map fun p => (p.1, valueOf p.2)).filter fun p =>
          decide (selected s p.1)) := by
        rw [List.mem_filter]
        exact ⟨List.mem_map.2 ⟨_, he, rfl⟩, by simpa using hc⟩
      obtain ⟨l, rest, heq⟩ := List.append_of_mem hm
      refine ⟨l, rest, heq, ?_⟩
      rw [heq, List.map_append, List.map_cons, List.nodup_append] at hkeys
      intro p hp hpk
      exact (List.nodup_cons.1 hkeys.2.1).1 (List.mem_map.2 ⟨p, hp, hpk⟩)
    · cases h

/-- C31. `update_object` gives the object exactly the attributes of the slice and leaves its other attributes alone. -/
theorem C31_update_object (valueOf : E → A) (d : PyDict K E) (o : PyObj K A) (s : Selection K) (r : PyDict K A)
    (h : mapSlice valueOf d s = .ok r) :
    ∃ o', mapUpdateObject valueOf d o s = .ok o' ∧ ∀ k, o' k = match dictGet r k with | some a => some a | none => o k := by
  unfold mapUpdateObject
  rw [h]
  refine ⟨_, rfl, fun k => setAttrs_get o r ?_ k⟩
  unfold mapSlice at h
  split at h
  · cases h
  · cases h; exact dictOf_nodup _

/-- C31. `set_by_object` hands `set` only values of attributes of the object, for field names, in whatever order the attribute set
is iterated: a pair comes from an attribute among the fields and the sources of renames, not omitted, emitted under the field's
name. -/
theorem C31_set_by_object_only_selected (fields : List K) (o : PyObj K A) (s : Selection K) (order : List K)
    (horder : ∀ a, a ∈ order → a ∈ objectAttrs fields s.rename s.omitted) (r : PyDict K A)
    (h : objectPairs fields o s order = .ok r) (k : K) (v : A) (hk : dictGet r k = some v) :
    k ∈ fields ∧ ∃ a ∈ order, o a = some v ∧ a ∉ s.omitted ∧ emitted { s with key := none } (a, v) = some (k, v) := by
  unfold objectPairs at h
  rw [C31_keyslice] at h
  split at h
  · cases h
  · rename_i hps
    split at hps
    · cases hps
    · cases hps
      cases h
      rw [dictOf_get] at hk
      obtain ⟨l, rest, heq, _⟩ := hk
      have hm : (k, v) ∈ List.filter (fun p => fields.contains p.1) (List.filterMap (emitted { s with key := none })
          (List.filterMap (fun a => Option.map (fun v => (a, v)) (o a)) order)) := by rw [heq]; simp
      rw [List.mem_filter, List.mem_filterMap] at hm
      obtain ⟨⟨p, hp, hpe⟩, hf⟩ := hm
      rw [List.mem_filterMap] at hp
      obtain ⟨a, ha, hav⟩ := hp
      cases hoa : o a with
      | none => rw [hoa] at hav; cases hav
      | some v' =>
        rw [hoa] at hav
        simp at hav
        subst hav
        have hv' : v' = v := by
          unfold emitted at hpe
          split at hpe
          · cases hpe; rfl
          · split at hpe <;> cases hpe; rfl
        subst hv'
        refine ⟨by simpa using hf, a, ha, hoa, ?_, hpe⟩
        have := horder a ha
        unfold objectAttrs at this
        rw [List.mem_filter] at this
        simpa using this.2

/-- C31. Without `rename`, `set_by_object` hands `set` exactly the attributes the object has for the selected fields. -/
theorem C31_set_by_object_plain (fields : List K) (o : PyObj K A) (s : Selection K) (hr : s.rename = []) (order : List K) (hn : order.Nodup)
    (horder : ∀ a, a ∈ order ↔ a ∈ objectAttrs fields s.rename s.omitted) (hs : s.included = [] ∨ s.omitted = []) :
    ∃ r, objectPairs fields o s order = .ok r ∧ ∀ k, dictGet r k =
      if k ∈ fields ∧ selected s k then o k else none := by
  have hmem : ∀ a, a ∈ order ↔ a ∈ fields ∧ a ∉ s.omitted := by
    intro a; rw [horder, hr]; simp [objectAttrs]
  let ps := List.filter (fun p => fields.contains p.1) (List.filterMap (emitted { s with key := none })
      (List.filterMap (fun a => Option.map (fun v => (a, v)) (o a)) order))
  have hres : objectPairs fields o s order = .ok (dictOf ps) := by
    unfold objectPairs
    rw [C31_keyslice, if_neg (by rcases hs with h | h <;> simp [h])]
  refine ⟨_, hres, ?_⟩
  have hem : ∀ p q : K × A, emitted { s with key := none } p = some q ↔
      q = p ∧ selected s p.1 := by
    intro p q
    obtain ⟨pk, pv⟩ := p
    simp only [emitted, cmpKey, hr, dictGet, selected]
    by_cases hi : s.included = []
    · by_cases hc : pk ∈ s.omitted <;> simp [hi, hc, eq_comm]
    · by_cases hc : pk ∈ s.included <;> simp [hi, hc, eq_comm]
  intro k
  apply Option.ext
  intro v
  constructor
  · intro h
    obtain ⟨h1, a, ha, hov, _, he⟩ := C31_set_by_object_only_selected fields o s order (fun a => (horder a).1) _ hres k v h
    obtain ⟨h2, h3⟩ := (hem _ _).1 he
    simp at h2
    subst h2
    rw [if_pos ⟨h1, h3⟩, hov]
  · intro h
    split at h
    · rename_i hc
      have hko : k ∈ order := by
        rw [hmem]
        refine ⟨hc.1, ?_⟩
        by_cases hi : s.included = []
        · have := hc.2; rw [selected, if_pos hi] at this; exact this
        · rcases hs with h' | h'
          · exact absurd h' hi
          · rw [h']; simp
      have hps : (k, v) ∈ ps := by
        simp only [ps, List.mem_filter, List.mem_filterMap]
        exact ⟨⟨(k, v), ⟨k, hko, by rw [h]; rfl⟩, (hem _ _).2 ⟨rfl, hc.2⟩⟩, by simpa using hc.1⟩
      -- every pair of `ps` with this key has this value
      rw [dictOf_get]
      have huniq : (ps.map Prod.fst).Nodup := by
        apply (List.filter_sublist.map Prod.fst).nodup
        have : ∀ order : List K, order.Nodup → ((List.filterMap (emitted { s with key := none })
            (List.filterMap (fun a => Option.map (fun v => (a, v)) (o a)) order)).map Prod.fst).Nodup ∧
            ∀ a ∈ (List.filterMap (emitted { s with key := none })
            (List.filterMap (fun a => Option.map (fun v => (a, v)) (o a)) order)).map Prod.fst, a ∈ order := by
          intro order
          induction order with
          | nil => intro _; simp
          | cons a as ih =>
            intro hn
            obtain ⟨ih1, ih2⟩ := ih (List.nodup_cons.1 hn).2
            rw [List.filterMap_cons]
            cases hoa : o a with
            | none => exact ⟨ih1, fun x hx => List.mem_cons_of_mem _ (ih2 x hx)⟩
            | some v =>
              simp only [Option.map_some]
              rw [List.filterMap_cons]
              cases he : emitted { s with key := none } (a, v) with
              | none => exact ⟨ih1, fun x hx => List.mem_cons_of_mem _ (ih2 x hx)⟩
              | some q =>
                obtain ⟨hq, _⟩ := (hem _ _).1 he
                subst hq
                simp only [List.map_cons, List.nodup_cons]
                refine ⟨⟨fun hx => (List.nodup_cons.1 hn).1 (ih2 a hx), ih1⟩, ?_⟩
                intro x hx
                rcases List.mem_cons.1 hx with rfl | hx
                · simp
                · exact List.mem_cons_of_mem _ (ih2 x hx)
        exact (this order hn).1
      obtain ⟨l, rest, heq⟩ := List.append_of_mem hps
      refine ⟨l, rest, heq, ?_⟩
      rw [heq, List.map_append, List.map_cons, List.nodup_append] at huniq
      intro p hp hpk
      exact (List.nodup_cons.1 huniq.2.1).1 (List.mem_map.2 ⟨p, hp, hpk⟩)
    · cases h

/-- C31, against the documentation: an attribute that is both renamed and omitted is *not* handed over ("Attributes specified in the
mapping will be included regardless of include or omit"). -/
theorem C31_omit_beats_rename : ∃ (fields : List Char) (o : PyObj Char Nat) (s : Selection Char) (order : List Char) (r : PyDict Char Nat),
    (∀ a, a ∈ order ↔ a ∈ objectAttrs fields s.rename s.omitted) ∧ dictGet s.rename 'x' = some 'a' ∧ 'a' ∈ fields ∧ o 'x' = some 1 ∧
      objectPairs fields o s order = .ok r ∧ dictGet r 'a' = none := by
  refine ⟨['a'], fun k => if k = 'x' then some 1 else none, { omitted := ['x'], rename := [('x', 'a')] }, ['a'], [], ?_, rfl, by decide, rfl,
    rfl, rfl⟩
  intro a
  simp [objectAttrs]

/-- C31: when a field and an attribute renamed to it both exist, the value handed over depends on the iteration order of a set. -/
theorem C31_collision_depends_on_order : ∃ (fields : List Char) (o : PyObj Char Nat) (s : Selection Char) (o1 o2 : List Char) (r1 r2 : PyDict Char Nat),
    (∀ a, a ∈ o1 ↔ a ∈ objectAttrs fields s.rename s.omitted) ∧ (∀ a, a ∈ o2 ↔ a ∈ objectAttrs fields s.rename s.omitted) ∧
      objectPairs fields o s o1 = .ok r1 ∧ objectPairs fields o s o2 = .ok r2 ∧ dictGet r1 'a' = some 1 ∧ dictGet r2 'a' = some 2 := by
  refine ⟨['a'], fun k => if k = 'x' then some 1 else if k = 'a' then some 2 else none, { rename := [('x', 'a')] }, ['a', 'x'], ['x', 'a'],
    [('a', 1)], [('a', 2)], ?_, ?_, rfl, rfl, rfl, rfl⟩
  · intro a; simp [objectAttrs]
  · intro a; simp [objectAttrs, or_comm]

section examples
-- renamed, omitted, kept: order preserved
example : keyslice { omitted := ['b', 'd'], rename := [('d', 'z')] } [('a', 1), ('b', 2), ('d', 3)] = .ok [('a', 1), ('z', 3)] := by rfl
example : keyslice { included := ['A'], key := some Char.toUpper } [('a', 1), ('b', 2)] = .ok [('A', 1)] := by rfl
example : keyslice { included := ['a'], omitted := ['b'] } [('a', 1)] = .error .type := by rfl
example : mapSlice (fun e : Nat × Bool => e.1) [('a', 5, false), ('b', 6, true)] { included := ['b'] } = .ok [('b', 6)] := by rfl
end examples

end Flatland
