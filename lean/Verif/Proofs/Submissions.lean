import Verif.Spec.Submissions
import Verif.Proofs.SetFlat
import Verif.Proofs.RoundTrip
namespace Flatland
open Spec

mutual
theorem fresh_conforms : ∀ s : Schema, Conforms s (fresh s)
  | .scalar h t => by simp [fresh, Conforms]
  | .dict h mode po fs => by
    rw [fresh, Conforms]
    exact ⟨rfl, freshFields_conforms mode fs⟩
  | .list h _ _ m => by simp [fresh, Conforms]
  | .array h _ m => by simp [fresh, Conforms]
theorem freshFields_conforms (mode : DictMode) : ∀ fs : List Schema, ConformsAll mode fs (freshFields mode fs)
  | [] => by simp [freshFields, ConformsAll]
  | f :: fs => by
    rw [freshFields, ConformsAll]
    refine ⟨?_, freshFields_conforms mode fs⟩
    cases ha : autoField mode f with
    | true => exact .inr (by simpa using fresh_conforms f)
    | false => exact .inl (by simp)
end

section
variable [Runtime]

theorem scalarSet_raw (t : ScalarType) (st : ScalarState) (r : Option PyVal) (v : PyVal) : scalarSet t { st with raw := r } v = scalarSet t st v := by
  unfold scalarSet
  rfl

omit [Runtime] in
theorem fieldOf_prefix {sep : PStr} {s : Schema} {p : Pos} {key : PStr} {h : Hdr} {t : ScalarType} (hf : FieldOf sep s p key h t) :
    ∀ n, s.name = some n → n <+: key := by
  cases hf with
  | here hn => intro n h'; rw [Schema.name, Schema.hdr, hn] at h'; cases h'; exact List.prefix_refl _
  | unnamed hn _ _ _ => intro n h'; rw [Schema.name, Schema.hdr, hn] at h'; cases h'
  | named hn _ _ _ => intro n h'; rw [Schema.name, Schema.hdr, hn] at h'; cases h'; rw [List.append_assoc]; exact List.prefix_append _ _

omit [Runtime] in
theorem submitted_none {key : PStr} {ps : List (PStr × PStr)} (h : ∀ kv ∈ ps, kv.1 ≠ key) : submitted key ps = none := by
  unfold submitted
  rw [List.find?_eq_none.2, Option.map_none]
  intro x hx
  simpa using h x hx

omit [Runtime] in
theorem submitted_sub (pre fn key : PStr) (hk : fn <+: key) (ps : List (PStr × PStr)) :
    submitted key ((ps.filter fun kv => decide (pre ++ fn <+: kv.1)).map fun kv => (kv.1.drop pre.length, kv.2)) = submitted (pre ++ key) ps := by
  induction ps with
  | nil => rfl
  | cons kv ps ih =>
    obtain ⟨k, v⟩ := kv
    unfold submitted at ih ⊢
    by_cases hp : pre ++ fn <+: k
    · obtain ⟨r, rfl⟩ := hp
      have : (pre ++ fn ++ r == pre ++ key) = (fn ++ r == key) := by
        rw [List.append_assoc, Bool.eq_iff_iff]; simp
      simp only [List.filter_cons, List.prefix_append, decide_true, if_true, List.map_cons, List.find?_cons, this]
      have hd : (pre ++ fn ++ r).drop pre.length = fn ++ r := by rw [List.append_assoc, List.drop_left]
      rw [hd]
      cases fn ++ r == key with
      | true => rfl
      | false => exact ih
    · have hne : (k == pre ++ key) = false := by
        rw [Bool.eq_false_iff]
        intro hc
        rw [beq_iff_eq] at hc
        subst hc
        obtain ⟨r, rfl⟩ := hk
        exact hp ⟨r, by simp⟩
      simp only [List.filter_cons, hp, decide_false, Bool.false_eq_true, if_false, List.find?_cons, hne]
      exact ih

omit [Runtime] in
theorem find_texts (n : PStr) (ps : List (PStr × PStr)) :
    (texts ps).find? (fun p => p.1 == some n) = (ps.find? fun kv => kv.1 == n).map fun kv => (some kv.1, kv.2) := by
  unfold texts
  rw [List.find?_map]
  rfl

omit [Runtime] in
theorem elemAt_cons_dict {n : Option PStr} {ks : List Elem} {i : Nat} {p : Pos} : elemAt (.dict n ks) (i :: p) = (ks[i]?).bind fun k => elemAt k p := by
  simp only [elemAt, Elem.kids]
  cases ks[i]? <;> rfl

omit [Runtime] in
theorem conformsAll_length {mode : DictMode} : ∀ {fs : List Schema} {ks : List Elem}, ConformsAll mode fs ks → ks.length = fs.length
  | [], [], _ => rfl
  | _ :: _, _ :: _, h => by simp [conformsAll_length h.2]
  | [], _ :: _, h | _ :: _, [], h => by simp [ConformsAll] at h

omit [Runtime] in
theorem conforms_kid {h' : Hdr} {mode : DictMode} {po : Policy} {fs : List Schema} {i : Nat} {f : Schema} (hfi : fs[i]? = some f) {e : Elem}
    (hc : Conforms (.dict h' mode po fs) e) {p : Pos} {x : Elem} (he : elemAt e (i :: p) = some x) :
    ∃ kids k, e = .dict h'.name kids ∧ kids.length = fs.length ∧ kids[i]? = some k ∧ Conforms f k ∧ elemAt k p = some x := by
  cases e with
  | dict nm kids =>
    simp only [Conforms] at hc
    obtain ⟨rfl, hca⟩ := hc
    rw [elemAt_cons_dict] at he
    cases hki : kids[i]? with
    | none => rw [hki] at he; simp at he
    | some k =>
      rw [hki, Option.bind_some] at he
      obtain ⟨f', hf', hk'⟩ := conformsAll_get hca hki
      rw [hfi, Option.some.injEq] at hf'
      subst hf'
      have hkc : Conforms f k := by
        rcases hk' with ⟨rfl, _⟩ | h''
        · simp [elemAt] at he
        · exact h''
      exact ⟨kids, k, rfl, conformsAll_length hca, hki, hkc, he⟩
  | _ => simp [Conforms] at hc

omit [Runtime] in
theorem fieldOf_elem {sep : PStr} {s : Schema} {p : Pos} {key : PStr} {h : Hdr} {t : ScalarType} (hf : FieldOf sep s p key h t) :
    ∀ (e : Elem) (_ : Conforms s e) (k : Elem) (_ : elemAt e p = some k), ∃ st, k = .scalar h.name st := by
  induction hf with
  | here hn =>
    intro e hc k he
    cases e with
    | scalar n st => simp only [Conforms] at hc; subst hc; simp only [elemAt, Option.some.injEq] at he; exact ⟨st, he.symm⟩
    | _ => simp [Conforms] at hc
  | unnamed _ hfi _ _ ih | named _ hfi _ _ ih =>
    intro e hc k he
    obtain ⟨_, k', _, _, _, hk, he'⟩ := conforms_kid hfi hc he
    exact ih k' hk k he'

/-- what `set_flat` does to a scalar below Dicts -/
theorem field_after {sep : PStr} {s : Schema} {p : Pos} {key : PStr} {h : Hdr} {t : ScalarType} (hf : FieldOf sep s p key h t) :
    ∀ (e : Elem) (_ : Conforms s e) (n : Option PStr) (st : ScalarState) (_ : elemAt e p = some (.scalar n st)) (ps : List (PStr × PStr)) (e' : Elem)
      (_ : setFlat sep s e (texts ps) = .ok e'),
      ∃ st', elemAt e' p = some (.scalar h.name st') ∧ st'.value = (afterSubmission t st (submitted key ps)).value ∧
        st'.u = (afterSubmission t st (submitted key ps)).u := by
  have step : ∀ {h h' : Hdr} {t : ScalarType} {mode : DictMode} {po : Policy} {fs : List Schema} {i : Nat} {f : Schema} {p : Pos} {key : PStr},
      fs[i]? = some f → FieldOf sep f p key h t → f.name ≠ none →
      (∀ (e : Elem) (_ : Conforms f e) (n : Option PStr) (st : ScalarState) (_ : elemAt e p = some (.scalar n st)) (ps : List (PStr × PStr)) (e' : Elem)
        (_ : setFlat sep f e (texts ps) = .ok e'),
        ∃ st', elemAt e' p = some (.scalar h.name st') ∧ st'.value = (afterSubmission t st (submitted key ps)).value ∧
          st'.u = (afterSubmission t st (submitted key ps)).u) →
      ∀ (e : Elem) (_ : Conforms (.dict h' mode po fs) e) (n : Option PStr) (st : ScalarState) (_ : elemAt e (i :: p) = some (.scalar n st))
        (ps : List (PStr × PStr)) (e' : Elem) (_ : setFlat sep (.dict h' mode po fs) e (texts ps) = .ok e'),
        ∃ st', elemAt e' (i :: p) = some (.scalar h.name st') ∧ st'.value = (afterSubmission t st (submitted (fieldPrefix sep h'.name ++ key) ps)).value ∧
          st'.u = (afterSubmission t st (submitted (fieldPrefix sep h'.name ++ key) ps)).u := by
    intro h h' t mode po fs i f p key hfi hfo hnm ih e hc n st he ps e' hset
    obtain ⟨fn, hfn⟩ := Option.ne_none_iff_exists'.1 hnm
    obtain ⟨kids, k, rfl, hlen, hki, hkc, hek⟩ := conforms_kid hfi hc he
    obtain ⟨kids', rfl, hl, hall⟩ := dict_fields sep h' mode po fs kids hlen ps e' hset
    have hlt : i < kids'.length := by
      rw [hl]
      exact (List.getElem?_eq_some_iff.1 hfi).1
    obtain ⟨h1, h2⟩ := hall i f fn k kids'[i] hfi hfn hki (List.getElem?_eq_getElem hlt)
    rw [elemAt_cons_dict, List.getElem?_eq_getElem hlt, Option.bind_some]
    by_cases hex : ∃ kv ∈ ps, fieldPrefix sep h'.name ++ fn <+: kv.1
    · have h3 := h2 hex
      have hor : orFresh f k = k := by
        cases k <;> first | rfl | (simp [elemAt] at hek)
      rw [hor] at h3
      obtain ⟨st', hs1, hs2, hs3⟩ := ih k hkc n st hek _ _ h3
      rw [submitted_sub _ fn key (fieldOf_prefix hfo fn hfn)] at hs2 hs3
      exact ⟨st', hs1, hs2, hs3⟩
    · have h3 := h1 fun kv hkv hc => hex ⟨kv, hkv, hc⟩
      rw [h3]
      have hno : submitted (fieldPrefix sep h'.name ++ key) ps = none := by
        refine submitted_none fun kv hkv hc => hex ⟨kv, hkv, ?_⟩
        rw [hc]
        obtain ⟨r, rfl⟩ := fieldOf_prefix hfo fn hfn
        exact ⟨r, by simp⟩
      rw [hno]
      obtain ⟨st', hst⟩ := fieldOf_elem hfo k hkc _ hek
      cases hst
      exact ⟨st, hek, rfl, rfl⟩
  induction hf with
  | @here hd t nm hn =>
    intro e hc n st he ps e' hset
    cases e with
    | scalar n' st' =>
      simp only [elemAt, Option.some.injEq, Elem.scalar.injEq] at he
      obtain ⟨rfl, rfl⟩ := he
      rw [setFlat, scalarSetFlat, hn, find_texts] at hset
      unfold submitted
      cases hfd : ps.find? (fun kv => kv.1 == nm) with
      | none =>
        rw [hfd] at hset
        simp only [Option.map_none, Except.ok.injEq] at hset
        subst hset
        exact ⟨{ st' with raw := .none }, by rw [hn]; rfl, rfl, rfl⟩
      | some kv =>
        rw [hfd] at hset
        simp only [Option.map_some, Elem.state] at hset
        rw [scalarSet_raw] at hset
        simp only [Option.map_some, afterSubmission]
        generalize hq : scalarSet t st' (.str kv.2) = q at hset
        obtain ⟨s1, r⟩ := q
        cases r with
        | error er => simp at hset
        | ok b =>
          simp only [Except.ok.injEq] at hset
          subst hset
          exact ⟨s1, by rw [hn]; rfl, rfl, rfl⟩
    | _ => simp [Conforms] at hc
  | unnamed hn hfi hnm hfo ih =>
    intro e hc n st he ps e' hset
    have := step hfi hfo hnm ih e hc n st he ps e' hset
    rwa [hn] at this
  | named hn hfi hnm hfo ih =>
    intro e hc n st he ps e' hset
    have := step hfi hfo hnm ih e hc n st he ps e' hset
    rwa [hn] at this


omit [Runtime] in
/-- a field of a new form is new -/
theorem fieldOf_fresh {sep : PStr} {s : Schema} {p : Pos} {key : PStr} {h : Hdr} {t : ScalarType} (hf : FieldOf sep s p key h t) :
    ∀ (k : Elem) (_ : elemAt (fresh s) p = some k), k = .scalar h.name .fresh := by
  induction hf with
  | here hn => intro k hk; simp only [fresh, elemAt, Option.some.injEq] at hk; exact hk.symm
  | @unnamed h' mode po fs i f p key hd t _ hfi _ _ ih | @named h' mode po fs i f p key hd t n _ hfi _ _ ih =>
    intro k hk
    rw [fresh, elemAt_cons_dict, freshFields_get mode fs i f hfi, Option.bind_some] at hk
    cases ha : autoField mode f with
    | true => rw [ha] at hk; exact ih k (by simpa using hk)
    | false => rw [ha] at hk; simp [elemAt] at hk

/-! ### plain forms -/

omit [Runtime] in
theorem conformsAll_of {fs : List Schema} {ks : List Elem} (hl : ks.length = fs.length)
    (h : ∀ (i : Nat) f k, fs[i]? = some f → ks[i]? = some k → Conforms f k) : ConformsAll .full fs ks := by
  induction fs generalizing ks with
  | nil => cases ks with
    | nil => exact trivial
    | cons _ _ => simp at hl
  | cons f fs ih => cases ks with
    | nil => simp at hl
    | cons k ks =>
      refine ⟨.inr (h 0 f k rfl rfl), ih (by simpa using hl) fun i f' k' h1 h2 => h (i + 1) f' k' (by simpa using h1) (by simpa using h2)⟩

theorem plain_setFlat {sep : PStr} {s : Schema} (hs : PlainForm s) : ∀ (e : Elem) (_ : Conforms s e) (ps : List (PStr × PStr)) (e' : Elem)
    (_ : setFlat sep s e (texts ps) = .ok e'), Conforms s e' := by
  induction hs with
  | scalar h t hn =>
    intro e hc ps e' hset
    rw [setFlat, scalarSetFlat] at hset
    split at hset
    · cases hset; simp [Conforms]
    · split at hset
      · cases hset; simp [Conforms]
      · cases hset
  | dict h po fs hn _ ih =>
    intro e hc ps e' hset
    cases e with
    | dict nm kids =>
      simp only [Conforms] at hc
      obtain ⟨rfl, hca⟩ := hc
      obtain ⟨kids', rfl, hl, hall⟩ := dict_fields sep h .full po fs kids (conformsAll_length hca) ps e' hset
      refine ⟨rfl, conformsAll_of hl fun i f k' hf hk' => ?_⟩
      have hmem := List.mem_of_getElem? hf
      obtain ⟨fn, hfn⟩ := Option.ne_none_iff_exists'.1 (hn f hmem)
      have hlt : i < kids.length := by
        rw [conformsAll_length hca]
        exact (List.getElem?_eq_some_iff.1 hf).1
      have hki := List.getElem?_eq_getElem hlt
      obtain ⟨f', hf', hk⟩ := conformsAll_get hca hki
      rw [hf, Option.some.injEq] at hf'
      subst hf'
      have hkc : Conforms f kids[i] := by
        rcases hk with ⟨_, h''⟩ | h''
        · simp [autoField] at h''
        · exact h''
      obtain ⟨h1, h2⟩ := hall i f fn _ k' hf hfn hki hk'
      by_cases hex : ∃ kv ∈ ps, fieldPrefix sep h.name ++ fn <+: kv.1
      · have h3 := h2 hex
        have hor : orFresh f kids[i] = kids[i] := by
          revert hkc
          generalize kids[i] = k
          intro hkc
          cases k <;> first | rfl | (cases f <;> simp [Conforms] at hkc)
        rw [hor] at h3
        exact ih f hmem _ hkc _ _ h3
      · rw [h1 fun kv hkv hc => hex ⟨kv, hkv, hc⟩]
        exact hkc
    | _ => simp [Conforms] at hc

omit [Runtime] in
/-- a field of a plain form is there -/
theorem plain_field_there {sep : PStr} {s : Schema} {p : Pos} {key : PStr} {h : Hdr} {t : ScalarType} (hf : FieldOf sep s p key h t) (hs : PlainForm s) :
    ∀ (e : Elem) (_ : Conforms s e), ∃ st, elemAt e p = some (.scalar h.name st) := by
  induction hf with
  | here hn =>
    intro e hc
    cases e with
    | scalar n st => simp only [Conforms] at hc; subst hc; exact ⟨st, rfl⟩
    | _ => simp [Conforms] at hc
  | unnamed _ hfi _ _ ih | named _ hfi _ _ ih =>
    intro e hc
    cases hs with
    | dict _ _ _ _ hall =>
      cases e with
      | dict nm kids =>
        simp only [Conforms] at hc
        obtain ⟨rfl, hca⟩ := hc
        have hlt := (List.getElem?_eq_some_iff.1 hfi).1
        rw [← conformsAll_length hca] at hlt
        have hki := List.getElem?_eq_getElem hlt
        obtain ⟨f', hf', hk⟩ := conformsAll_get hca hki
        rw [hfi, Option.some.injEq] at hf'
        subst hf'
        rw [elemAt_cons_dict, hki, Option.bind_some]
        rcases hk with ⟨_, h''⟩ | h''
        · simp [autoField] at h''
        · exact ih (hall _ (List.mem_of_getElem? hfi)) _ h''
      | _ => simp [Conforms] at hc

omit [Runtime] in
theorem fieldOf_unique {sep : PStr} {s : Schema} {p : Pos} {key : PStr} {h : Hdr} {t : ScalarType} (hf : FieldOf sep s p key h t) :
    ∀ {key' : PStr} {h' : Hdr} {t' : ScalarType}, FieldOf sep s p key' h' t' → key' = key ∧ h' = h ∧ t' = t := by
  induction hf with
  | here hn =>
    intro _ _ _ hf'
    cases hf' with
    | here hn' => rw [hn] at hn'; cases hn'; exact ⟨rfl, rfl, rfl⟩
  | unnamed hn hfi _ _ ih =>
    intro _ _ _ hf'
    cases hf' with
    | unnamed _ hfi' _ hfo => rw [hfi] at hfi'; cases hfi'; exact ih hfo
    | named hn' _ _ _ => rw [hn] at hn'; cases hn'
  | named hn hfi _ _ ih =>
    intro _ _ _ hf'
    cases hf' with
    | unnamed hn' _ _ _ => rw [hn] at hn'; cases hn'
    | named hn' hfi' _ hfo =>
      rw [hn] at hn'; cases hn'
      rw [hfi] at hfi'; cases hfi'
      obtain ⟨h1, h2⟩ := ih hfo
      exact ⟨by rw [h1], h2⟩

omit [Runtime] in
/-- every element of a plain form is a field or a Dict -/
theorem plain_elem {sep : PStr} {s : Schema} (hs : PlainForm s) : ∀ (e : Elem) (_ : Conforms s e) (p : Pos) (k : Elem) (_ : elemAt e p = some k),
    (∃ key h t st, FieldOf sep s p key h t ∧ k = .scalar h.name st) ∨ (∃ n ks, k = .dict n ks) := by
  induction hs with
  | scalar h t hn =>
    intro e hc p k he
    obtain ⟨n, hn'⟩ := Option.ne_none_iff_exists'.1 hn
    cases e with
    | scalar nm st =>
      simp only [Conforms] at hc
      subst hc
      cases p with
      | nil =>
        simp only [elemAt, Option.some.injEq] at he
        exact .inl ⟨n, h, t, st, .here hn', he.symm⟩
      | cons i p => simp [elemAt, Elem.kids] at he
    | _ => simp [Conforms] at hc
  | dict h po fs hn _ ih =>
    intro e hc p k he
    cases p with
    | nil =>
      cases e with
      | dict nm ks => simp only [elemAt, Option.some.injEq] at he; exact .inr ⟨nm, ks, he.symm⟩
      | _ => simp [Conforms] at hc
    | cons i p =>
      cases e with
      | dict nm kids =>
        simp only [Conforms] at hc
        obtain ⟨rfl, hca⟩ := hc
        rw [elemAt_cons_dict] at he
        cases hki : kids[i]? with
        | none => rw [hki] at he; simp at he
        | some x =>
          rw [hki, Option.bind_some] at he
          obtain ⟨f, hf, hk⟩ := conformsAll_get hca hki
          have hxc : Conforms f x := by
            rcases hk with ⟨rfl, _⟩ | h''
            · simp [elemAt] at he
            · exact h''
          have hmem := List.mem_of_getElem? hf
          rcases ih f hmem x hxc p k he with ⟨key, h', t, st, hfo, rfl⟩ | hd
          · left
            cases hnm : h.name with
            | none => exact ⟨key, h', t, st, .unnamed hnm hf (hn f hmem) hfo, rfl⟩
            | some n => exact ⟨_, h', t, st, .named hnm hf (hn f hmem) hfo, rfl⟩
          · exact .inr hd
      | _ => simp [Conforms] at hc

end
end Flatland
