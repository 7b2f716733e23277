import Verif.Proofs.SetFlat
import Verif.Spec.TreeExample
/-
Properties C11, C12, C13, C15: `set_flat` on arbitrary submissions.
-/
namespace Flatland
open Spec

section
variable [Runtime]

/-- C13.  However large the submitted indexes, a List filled by set_flat has at most `maximum_set_flat_members` members. -/
theorem C13_bounded (sep : PStr) (h : Hdr) (prune : Bool) (max : Nat) (m : Schema) (e e' : Elem) (ps : List (PStr × PStr))
    (hr : setFlat sep (.list h prune max m) e (texts ps) = .ok e') :
    ∃ kids, e' = .list h.name kids ∧ kids.length ≤ max := by
  obtain ⟨kids, rfl, hk⟩ := setFlat_list hr
  refine ⟨kids, rfl, ?_⟩
  rw [(mapM_ok hk).1]
  split
  · simp
  · split
    · simp; omega
    · simp; omega

/-- C13, `prune_empty`.  The members are, in increasing order, the submitted indexes that carry a non-empty value, cut off at
`maximum_set_flat_members`; each member is a new one filled with what was submitted for its index. -/
theorem C13_pruned {sep : PStr} (hs : GoodSep sep) (hnl : sep ≠ ['\n']) (h : Hdr) (max : Nat) (m : Schema) (e : Elem)
    (kids : List Elem) (ps : List (PStr × PStr))
    (hr : setFlat sep (.list h true max m) e (texts ps) = .ok (.list h.name kids)) :
    ∃ idxs : List Nat, idxs.Pairwise (· < ·) ∧
      (∀ i, i ∈ idxs ↔ ∃ kv ∈ ps, kv.2 ≠ [] ∧ ∃ ck, Mentions sep h.name kv.1 i ck) ∧
      kids.length = min idxs.length max ∧
      ∀ (j : Nat) i k, idxs[j]? = some i → kids[j]? = some k →
        ∃ l, SubmittedFor sep h.name i (ps.filter fun x => x.2 != []) l ∧ setFlat sep m (fresh m) l = .ok k := by
  obtain ⟨kids', heq, hk⟩ := setFlat_list hr
  simp only [Elem.list.injEq, true_and] at heq
  subst heq
  have hmem : ∀ i, i ∈ sortedIdx (matchesOf sep h.name true ps) ↔ ∃ kv ∈ ps, kv.2 ≠ [] ∧ ∃ ck, Mentions sep h.name kv.1 i ck := by
    intro i
    rw [mem_sortedIdx, mem_matchesOf hs hnl]
    simp
  refine ⟨sortedIdx (matchesOf sep h.name true ps), sortedIdx_sorted _, hmem, ?_, ?_⟩
  · rw [(mapM_ok hk).1]
    split
    · rename_i h0
      simp only [List.isEmpty_iff] at h0
      simp [h0, sortedIdx]
    · simp [Nat.min_comm]
  · intro j i k hi hkj
    have hsub := subPairs_submitted hs hnl h.name true ps i
    simp only [Bool.and_true] at hsub
    refine ⟨_, hsub, ?_⟩
    obtain ⟨hlen, hall⟩ := mapM_ok hk
    have hne : (matchesOf sep h.name true ps).isEmpty = false := by
      cases hm : (matchesOf sep h.name true ps) with
      | nil => rw [hm] at hi; simp [sortedIdx] at hi
      | cons => rfl
    simp only [hne] at hall hlen
    have hj : j < max := by
      have h1 : j < kids.length := (List.getElem?_eq_some_iff.1 hkj).1
      simp at hlen
      omega
    have hthis := hall j i k (by simp [hj, hi]) hkj
    rw [if_neg] at hthis
    · exact hthis
    · have : i ∈ sortedIdx (matchesOf sep h.name true ps) := List.mem_of_getElem? hi
      rw [mem_sortedIdx] at this
      obtain ⟨x, hx, hxi⟩ := this
      intro h0
      simp only [subPairs, List.isEmpty_iff, List.map_eq_nil_iff, List.filter_eq_nil_iff] at h0
      exact h0 x hx (by simpa using hxi)

/-- C13, without `prune_empty`.  With no index submitted the List is empty; otherwise it has (largest submitted index) + 1 members,
but at most `maximum_set_flat_members`, and member `j` is a new one filled with what was submitted for index `j`. -/
theorem C13_unpruned {sep : PStr} (hs : GoodSep sep) (hnl : sep ≠ ['\n']) (h : Hdr) (max : Nat) (m : Schema) (e : Elem)
    (kids : List Elem) (ps : List (PStr × PStr))
    (hr : setFlat sep (.list h false max m) e (texts ps) = .ok (.list h.name kids)) :
    ((∀ kv ∈ ps, ∀ i ck, ¬ Mentions sep h.name kv.1 i ck) → kids = []) ∧
    (∀ M, (∃ kv ∈ ps, ∃ ck, Mentions sep h.name kv.1 M ck) → (∀ kv ∈ ps, ∀ i ck, Mentions sep h.name kv.1 i ck → i ≤ M) →
      kids.length = min (M + 1) max) ∧
    ∀ (j : Nat) k, kids[j]? = some k → ∃ l, SubmittedFor sep h.name j ps l ∧
      (l = [] → k = fresh m) ∧ (l ≠ [] → setFlat sep m (fresh m) l = .ok k) := by
  obtain ⟨kids', heq, hk⟩ := setFlat_list hr
  simp only [Elem.list.injEq, true_and] at heq
  subst heq
  have hmm : ∀ i, (∃ x ∈ matchesOf sep h.name false ps, x.1 = i) ↔ ∃ kv ∈ ps, ∃ ck, Mentions sep h.name kv.1 i ck := by
    intro i
    rw [mem_matchesOf hs hnl]; simp
  obtain ⟨hlen, hall⟩ := mapM_ok hk
  refine ⟨?_, ?_, ?_⟩
  · intro hno
    have : matchesOf sep h.name false ps = [] := by
      cases hm : matchesOf sep h.name false ps with
      | nil => rfl
      | cons x xs =>
        obtain ⟨kv, hkv, ck, hc⟩ := (hmm x.1).1 ⟨x, by rw [hm]; simp, rfl⟩
        exact absurd hc (hno kv hkv _ _)
    rw [this] at hlen
    simpa using hlen
  · intro M hM hle
    obtain ⟨x, hx, hxM⟩ := (hmm M).2 hM
    have hne : matchesOf sep h.name false ps ≠ [] := by intro h0; rw [h0] at hx; simp at hx
    have hmax : maxIdx (matchesOf sep h.name false ps) = M := by
      apply Nat.le_antisymm
      · obtain ⟨y, hy, hyM⟩ := maxIdx_mem _ hne
        obtain ⟨kv, hkv, ck, hc⟩ := (hmm y.1).1 ⟨y, hy, rfl⟩
        rw [← hyM]; exact hle kv hkv _ _ hc
      · rw [← hxM]; exact le_maxIdx _ x hx
    rw [hlen, hmax]
    cases hm : matchesOf sep h.name false ps with
    | nil => exact absurd hm hne
    | cons => simp
  · intro j k hj
    have hsub := subPairs_submitted hs hnl h.name false ps j
    rw [List.filter_eq_self.2 (by simp)] at hsub
    refine ⟨_, hsub, ?_⟩
    have hj' : j < kids.length := (List.getElem?_eq_some_iff.1 hj).1
    rw [hlen] at hj'
    have hthis := hall j j k (by
      split at hj'
      · simp at hj'
      · rename_i hne
        rw [if_neg hne]
        simp only [Bool.false_eq_true, if_false] at hj' ⊢
        rw [List.getElem?_range (by simpa using hj')]) hj
    split at hthis
    · rename_i h0
      simp only [List.isEmpty_iff] at h0
      simp only [Except.ok.injEq] at hthis
      exact ⟨fun _ => hthis.symm, fun h1 => absurd h0 h1⟩
    · rename_i h0
      simp only [List.isEmpty_iff] at h0
      exact ⟨fun h1 => absurd h1 h0, fun _ => hthis⟩

/-- C11.  Pairs whose key is neither the element's name nor extends it through the separator have no effect on `set_flat`:
the outcome (result or exception) is that of the remaining pairs alone.
Missing for the full claim: an Array of named members takes the key "name + newline" for its own, see
`C11_newline_key_not_ignored`; so for such Arrays that one key is excluded. -/
theorem C11_unrelated_ignored_partial (sep n : PStr) (hn : n ≠ []) (s : Schema) (hname : s.name = some n) (e : Elem)
    (ps : List (PStr × PStr)) (hnl : NamedMembers s → ∀ kv ∈ ps, kv.1 ≠ n ++ ['\n']) :
    setFlat sep s e (texts ps) = setFlat sep s e (texts (ps.filter fun kv => decide (Concerns sep n kv.1))) :=
  unrelated_ignored sep n hn s hname e ps hnl

/-- C11, unnamed Dicts (typically the form itself).  Pairs whose key does not start with the name of a field have no effect. -/
theorem C11_unnamed_dict (sep : PStr) (h : Hdr) (hname : h.name = none) (mode : DictMode) (po : Policy) (fs : List Schema)
    (hf : ∀ f ∈ fs, f.name ≠ none) (kids : List Elem) (hk : kids.length = fs.length) (ps : List (PStr × PStr)) :
    setFlat sep (.dict h mode po fs) (.dict none kids) (texts ps) =
    setFlat sep (.dict h mode po fs) (.dict none kids)
      (texts (ps.filter fun kv => decide (∃ f ∈ fs, ∃ fn, f.name = some fn ∧ fn <+: kv.1))) :=
  unnamed_dict_ignored sep h hname mode po fs hf kids hk ps

/-- C12.  `set_flat` raises on no submission of text pairs exactly when the schema is one of `NeverRaises`: all Dict fields
named, Arrays of scalars only, and Lists only of members that can be addressed by a bare index (scalars and unnamed Arrays
of scalars), or Lists that take no members.  So C12 holds for those schemas and fails for every other one. -/
theorem C12_never_raises_iff {sep : PStr} (hs : sep ≠ []) (s : Schema) (hd : Declared s) :
    (∀ (e : Elem) (ps : List (PStr × PStr)), ∃ e', setFlat sep s e (texts ps) = .ok e') ↔ NeverRaises s := by
  constructor
  · intro h
    apply Classical.byContradiction
    intro hn
    obtain ⟨key, _, hk⟩ := raising_key hs s (fieldsDeclared_of s hd) hn
    obtain ⟨er, her⟩ := hk (fresh s)
    obtain ⟨e', he'⟩ := h (fresh s) [(key, ['x'])]
    rw [her] at he'
    simp at he'
  · exact fun hn e ps => neverRaises_ok s hd hn e ps

/-- C12, the part of the claim that is true. -/
theorem C12_safe_schemas_partial {sep : PStr} (s : Schema) (hd : Declared s) (hn : NeverRaises s) (e : Elem) (ps : List (PStr × PStr)) :
    ∃ e', setFlat sep s e (texts ps) = .ok e' := neverRaises_ok s hd hn e ps

/-- C12, the part of the claim that is false: with a List of Dicts, a key that stops after the index raises AttributeError. -/
theorem C12_list_of_dicts_raises (sep : PStr) (hs : sep ≠ []) (n : PStr) (hn : n ≠ []) (hd : Hdr) (hdn : hd.name = none) (mode : DictMode) (po : Policy)
    (f : Schema) (fs : List Schema) (o : Bool) (d : Option PyVal) (prune : Bool) (max : Nat) (hmax : max ≠ 0) (e : Elem) :
    setFlat sep (.list ⟨some n, o, d⟩ prune max (.dict hd mode po (f :: fs))) e
      (texts [(n ++ sep ++ ['0'], ['x'])]) = .error .attribute :=
  list_of_dicts_raises sep hs n hn hd hdn mode po f fs o d prune max hmax e

/-- C15, Dict and SparseDict.  `set_flat` leaves alone every field whose name does not prefix a submitted key (after the Dict's own
prefix); a field whose name does is set from exactly those pairs, starting from what it was, or from a new element if it
was not there. -/
theorem C15_dict_fields (sep : PStr) (h : Hdr) (mode : DictMode) (po : Policy) (fs : List Schema) (kids : List Elem)
    (hk : kids.length = fs.length) (ps : List (PStr × PStr)) (e' : Elem)
    (hr : setFlat sep (.dict h mode po fs) (.dict h.name kids) (texts ps) = .ok e') :
    ∃ kids', e' = .dict h.name kids' ∧ kids'.length = fs.length ∧
      ∀ (i : Nat) f fn k k', fs[i]? = some f → f.name = some fn → kids[i]? = some k → kids'[i]? = some k' →
        ((∀ kv ∈ ps, ¬ fieldPrefix sep h.name ++ fn <+: kv.1) → k' = k) ∧
        ((∃ kv ∈ ps, fieldPrefix sep h.name ++ fn <+: kv.1) →
          ∃ start, StartsAs f k start ∧
            setFlat sep f start (texts ((ps.filter fun kv => decide (fieldPrefix sep h.name ++ fn <+: kv.1)).map
              fun kv => (kv.1.drop (fieldPrefix sep h.name).length, kv.2))) = .ok k') := by
  obtain ⟨kids', h1, h2, h3⟩ := dict_fields sep h mode po fs kids hk ps e' hr
  refine ⟨kids', h1, h2, fun i f fn k k' a b c d => ⟨(h3 i f fn k k' a b c d).1, fun hx => ⟨orFresh f k, startsAs f k, (h3 i f fn k k' a b c d).2 hx⟩⟩⟩

omit [Runtime] in
theorem autoField_iff (mode : DictMode) (f : Schema) : autoField mode f = true ↔ mode = .full ∨ mode = .sparseRequired ∧ f.hdr.optional = false := by
  cases mode <;> simp [autoField]

omit [Runtime] in
/-- C15, SparseDict.  What a new Dict holds: a blank child for each field; a new SparseDict holds no child, one with `minimum_fields='required'` a blank
one for each field that is not optional. -/
theorem C15_new_fields (h : Hdr) (mode : DictMode) (po : Policy) (fs : List Schema) :
    ∃ kids, fresh (.dict h mode po fs) = .dict h.name kids ∧ kids.length = fs.length ∧ ∀ (i : Nat) f, fs[i]? = some f →
      (mode = .full ∨ mode = .sparseRequired ∧ f.hdr.optional = false → kids[i]? = some (fresh f)) ∧
      (¬ (mode = .full ∨ mode = .sparseRequired ∧ f.hdr.optional = false) → kids[i]? = some .absent) := by
  refine ⟨freshFields mode fs, by rw [fresh], freshFields_length mode fs, fun i f hf => ?_⟩
  rw [← autoField_iff, freshFields_get mode fs i f hf]
  cases autoField mode f <;> simp

/-- C15, SparseDict.  Filled from flat data, a new SparseDict holds only fields that every new one holds, or whose name prefixes
a submitted key. -/
theorem C15_sparse_new (sep : PStr) (h : Hdr) (mode : DictMode) (po : Policy) (fs : List Schema) (ps : List (PStr × PStr))
    (kids' : List Elem) (hr : setFlat sep (.dict h mode po fs) (fresh (.dict h mode po fs)) (texts ps) = .ok (.dict h.name kids'))
    (i : Nat) (f : Schema) (fn : PStr) (k' : Elem) (hf : fs[i]? = some f) (hfn : f.name = some fn) (hk' : kids'[i]? = some k')
    (hp : k'.present = true) :
    (mode = .full ∨ mode = .sparseRequired ∧ f.hdr.optional = false) ∨ ∃ kv ∈ ps, fieldPrefix sep h.name ++ fn <+: kv.1 := by
  rw [← autoField_iff]
  rw [fresh] at hr
  obtain ⟨kids'', heq, hl, hall⟩ := dict_fields sep h mode po fs _ (freshFields_length mode fs) ps _ hr
  simp only [Elem.dict.injEq, true_and] at heq
  subst heq
  have hfr := freshFields_get mode fs i f hf
  obtain ⟨h1, _⟩ := hall i f fn _ k' hf hfn hfr hk'
  by_cases hex : ∃ kv ∈ ps, fieldPrefix sep h.name ++ fn <+: kv.1
  · exact .inr hex
  · left
    have hkk := h1 fun kv hkv hc => hex ⟨kv, hkv, hc⟩
    cases ha : autoField mode f with
    | true => rfl
    | false => rw [hkk, ha] at hp; simp [Elem.present] at hp

/-- C15, sequences.  The outcome of `set_flat` on a List or an Array does not depend on its former content. -/
theorem C15_sequences_replaced (sep : PStr) (s : Schema) (hs : IsSequence s) (e₁ e₂ : Elem)
    (ps : List FPair) : setFlat sep s e₁ ps = setFlat sep s e₂ ps := by
  cases s with
  | scalar => exact hs.elim
  | dict => exact hs.elim
  | list h prune max m => rw [setFlat, setFlat]
  | array h prune m =>
    cases m with
    | scalar => rw [setFlat, setFlat]
    | dict | list | array => rw [setFlat, setFlat]; all_goals simp

end

/-! ### witnesses -/

section
attribute [local instance] Runtime.ascii

/-- C11 fails for an Array of named members: the key `t` + newline adds a (blank) member. -/
theorem C11_newline_key_not_ignored :
    let s : Schema := .array ⟨some "t".toList, false, some .none⟩ true (.scalar ⟨some "x".toList, false, some .none⟩ (stringType true))
    ¬ Concerns "_".toList "t".toList "t\n".toList ∧
    setFlat "_".toList s (fresh s) (texts []) = .ok (.array (some "t".toList) []) ∧
    setFlat "_".toList s (fresh s) (texts [("t\n".toList, "v".toList)]) =
      .ok (.array (some "t".toList) [.scalar (some "x".toList) .fresh]) := by
  refine ⟨by decide, ?_, ?_⟩
  · simp [setFlat, texts, arrayMembers]
  · simp [setFlat, texts, arrayMembers, arrayPick, truthyName, orNone, startsWith, scalarSetFlat, bind, Except.bind]
    rfl

/-- C15: "mentioned by a key" is a matter of text prefixes: the key `xy` makes a SparseDict create the field `x`. -/
theorem C15_sparse_prefix_quirk :
    let s : Schema := .dict ⟨none, false, some .none⟩ .sparse .subset [.scalar ⟨some "x".toList, true, some .none⟩ (stringType true)]
    setFlat "_".toList s (fresh s) (texts [("xy".toList, "v".toList)]) =
      .ok (.dict none [.scalar (some "x".toList) .fresh]) := by
  simp [setFlat, setFlatFields, fresh, freshFields, autoField, texts, dictPossibles, accumField, startsWith, Schema.name, Schema.hdr,
    Elem.kids, orFresh, Elem.state, scalarSetFlat, bind, Except.bind]
  rfl

/-! ### the hypotheses can be met -/

/-- the example schema, which has a List of Dicts, is declared and raises on some submission -/
example : Declared TreeExample.schema ∧ ¬ NeverRaises TreeExample.schema := by
  refine ⟨?_, by simp [TreeExample.schema, NeverRaises, NeverRaisesAll, BareMember]⟩
  have hs : TextSafe (stringType true) := fun st x => builtin_text_ok (.string true) st x
  have hi : TextSafe (integerType true 0) := fun st x => builtin_text_ok (.integer true 0) st x
  simp [TreeExample.schema, Declared, DeclaredAll, hs, hi]

/-- a Dict with a List of Integers raises on none -/
example :
    let s : Schema := .dict ⟨some "o".toList, false, some .none⟩ .full .subset
        [.list ⟨some "l".toList, false, some .none⟩ true 1024 (.scalar ⟨none, false, some .none⟩ (integerType true 0))]
    Declared s ∧ NeverRaises s := by
  have hi : TextSafe (integerType true 0) := fun st x => builtin_text_ok (.integer true 0) st x
  simp [Declared, DeclaredAll, hi, NeverRaises, NeverRaisesAll, BareMember, Schema.name, Schema.hdr]

/-- keys that mention index 7 -/
example : Mentions "_".toList (some "l".toList) "l_7_n".toList 7 (some "n".toList) ∧ Mentions "_".toList (some "l".toList) "l_07".toList 7 none := by
  refine ⟨⟨"7".toList, "_n".toList, rfl, ?_, .inr (.inr (.inl ⟨"n".toList, by decide, rfl, rfl⟩))⟩,
    ⟨"07".toList, [], rfl, ?_, .inl ⟨rfl, rfl⟩⟩⟩ <;> rw [digitText_iff] <;> decide

end
end Flatland
