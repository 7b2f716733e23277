import Verif.Spec.Deferred
import Verif.Proofs.Mappings
import Verif.Proofs.MarkupOrder
/-! Lemmas for C73. -/
namespace Flatland
open Spec

theorem pushed_inner (s : PStr) (l : List PStr) (d : PyDict PStr PStr) (k : PStr) :
    dictGet (l.foldl (fun d m => dictPut d m s) d) k = if k ∈ l then some s else dictGet d k := by
  induction l generalizing d with
  | nil => simp
  | cons m r ih =>
    rw [List.foldl_cons, ih, dictGet_put]
    by_cases h1 : k ∈ r
    · simp [h1]
    · by_cases h2 : k = m <;> simp [h1, h2]

theorem pushed_spec (p : Package) (k : PStr) : dictGet (pushedUp p) k = ownerOf p k := by
  have key : ∀ (l : List (PStr × List PStr)) (d : PyDict PStr PStr),
      dictGet (l.foldl (fun d e => e.2.foldl (fun d m => dictPut d m e.1) d) d) k =
        match (l.reverse.find? fun e => k ∈ e.2).map (·.1) with
        | some o => some o
        | none => dictGet d k := by
    intro l
    induction l with
    | nil => intro d; rfl
    | cons e r ih =>
      intro d
      rw [List.foldl_cons, ih, pushed_inner, List.reverse_cons, List.find?_append]
      cases hf : r.reverse.find? (fun e => decide (k ∈ e.2)) with
      | some x => simp
      | none => by_cases h : k ∈ e.2 <;> simp [h]
  rw [pushedUp, key, ownerOf]
  cases (p.deferred.reverse.find? fun e => k ∈ e.2).map (·.1) <;> rfl

theorem owner_listed {p : Package} {k o : PStr} (h : ownerOf p k = some o) : Listed p o := by
  unfold ownerOf at h
  cases hf : p.deferred.reverse.find? (fun e => k ∈ e.2) with
  | none => rw [hf] at h; cases h
  | some e =>
    rw [hf] at h
    exact ⟨e, List.mem_reverse.1 (List.mem_of_find?_eq_some hf), by simpa using h⟩

theorem owner_mem {p : Package} {k o : PStr} (h : ownerOf p k = some o) : k ∈ allNames p := by
  unfold ownerOf at h
  cases hf : p.deferred.reverse.find? (fun e => k ∈ e.2) with
  | none => rw [hf] at h; cases h
  | some e =>
    have := List.find?_some hf
    exact List.mem_flatMap.2 ⟨e, List.mem_reverse.1 (List.mem_of_find?_eq_some hf), by simp at this; simp [this]⟩

theorem mem_all {p : Package} {k : PStr} : k ∈ allNames p ↔ Listed p k ∨ ownerOf p k ≠ none := by
  constructor
  · intro h
    obtain ⟨e, he, hk⟩ := List.mem_flatMap.1 h
    rcases List.mem_cons.1 hk with hk | hk
    · exact .inl ⟨e, he, hk.symm⟩
    · right
      intro hn
      unfold ownerOf at hn
      have : p.deferred.reverse.find? (fun e => decide (k ∈ e.2)) = none := by simpa using hn
      rw [List.find?_eq_none] at this
      exact this e (List.mem_reverse.2 he) (by simpa using hk)
  · rintro (⟨e, he, rfl⟩ | h)
    · exact List.mem_flatMap.2 ⟨e, he, by simp⟩
    · cases ho : ownerOf p k with
      | none => exact absurd ho h
      | some o => exact owner_mem ho

/-! ### imports -/

theorem bind_fold (l : List PStr) : ∀ st : PkgState,
    (∀ t, t ∈ (l.foldl bindLoaded st).loaded ↔ t ∈ st.loaded ∨ t ∈ l) ∧
    (∀ k, dictGet (l.foldl bindLoaded st).dict k = if k ∈ l ∧ k ∉ st.loaded then some (.module k) else dictGet st.dict k) := by
  induction l with
  | nil => intro st; simp
  | cons s r ih =>
    intro st
    obtain ⟨h1, h2⟩ := ih (bindLoaded st s)
    by_cases hs : s ∈ st.loaded
    · have hb : bindLoaded st s = st := by simp [bindLoaded, hs]
      rw [List.foldl_cons]
      rw [hb] at h1 h2 ⊢
      refine ⟨fun t => ?_, fun k => ?_⟩
      · rw [h1]
        constructor
        · rintro (h | h) <;> simp [h]
        · intro h
          rcases h with h | h
          · exact .inl h
          · rcases List.mem_cons.1 h with rfl | h
            · exact .inl hs
            · exact .inr h
      · rw [h2]
        by_cases hk : k = s
        · subst hk; simp [hs]
        · simp [hk]
    · have hb : bindLoaded st s = ⟨dictPut st.dict s (.module s), st.loaded ++ [s]⟩ := by simp [bindLoaded, hs]
      rw [List.foldl_cons]
      rw [hb] at h1 h2 ⊢
      refine ⟨fun t => ?_, fun k => ?_⟩
      · rw [h1]
        simp [or_assoc]
      · rw [h2]
        simp only [dictGet_put, List.mem_append, List.mem_singleton, List.mem_cons]
        by_cases hk : k = s
        · subst hk; simp [hs]
        · simp [hk]

/-! ### the invariant -/

/-- what is always so -/
structure PkgInv (f : Files) (p : Package) (initial : List PStr) (st : PkgState) : Prop where
  sound : ∀ k v, dictGet st.dict k = some v → pkgAnswer f p (decide (k ∈ st.loaded ∧ k ∉ initial)) k = .ok v
  std : ∀ k ∈ p.std, dictGet st.dict k = some (.std k)
  given : ∀ k v, k ∉ p.std → dictGet p.given k = some v → dictGet st.dict k = some (.val v)
  bound : ∀ s ∈ st.loaded, s ∉ initial → dictGet st.dict s = some (.module s)
  before : ∀ s ∈ initial, s ∈ st.loaded
  closed : ∀ s ∈ st.loaded, s ∈ f.imports s ∧ ∀ t ∈ f.imports s, t ∈ st.loaded
  modules : ∀ k m, dictGet st.dict k = some (.module m) → k = m ∧ k ∈ st.loaded
  owners : ∀ k o v, k ∉ p.std → dictGet p.given k = none → ownerOf p k = some o → dictGet st.dict k = some v → o ∈ st.loaded

theorem answer_mono {f : Files} {p : Package} {b : Bool} {k : PStr} {v : PkgVal} (h : pkgAnswer f p b k = .ok v) : pkgAnswer f p true k = .ok v := by
  unfold pkgAnswer at h ⊢
  cases b with
  | true => exact h
  | false =>
    split
    · rename_i hk; simpa [hk] using h
    · rename_i hk
      rw [if_neg hk] at h
      cases hg : dictGet p.given k with
      | some v => rw [hg] at h; exact h
      | none =>
        rw [hg] at h
        simp only [] at h ⊢
        cases ho : ownerOf p k with
        | some o => rw [ho] at h; exact h
        | none =>
          rw [ho] at h
          simp only [] at h ⊢
          split
          · rename_i hl; simpa [hl] using h
          · rename_i hl; simp [hl] at h

theorem answer_mono' {f : Files} {p : Package} {b c : Bool} {k : PStr} {v : PkgVal} (hbc : b = true → c = true) (h : pkgAnswer f p b k = .ok v) :
    pkgAnswer f p c k = .ok v := by
  cases c with
  | true => exact answer_mono h
  | false =>
    cases b with
    | true => exact absurd (hbc rfl) (by simp)
    | false => exact h

theorem not_given {p : Package} {k : PStr} (h : k ∉ dictKeys p.given) : dictGet p.given k = none := dictGet_none.2 h

theorem answer_module {f : Files} {p : Package} {initial : List PStr} (hp : PlainPackage f p initial) {s : PStr} (hs : s ∈ f.imports s) {b : Bool}
    (hb : Listed p s ∨ b = true) : pkgAnswer f p b s = .ok (.module s) := by
  obtain ⟨h1, h2, h3⟩ := hp.names s (.inl hs)
  unfold pkgAnswer
  rw [if_neg h2, not_given h3]
  simp only [h1]
  by_cases hl : Listed p s
  · simp [hl, hs]
  · rcases hb with hb | hb
    · exact absurd hb hl
    · simp [hl, hb]

/-- importing: what it answers, what it loads -/
theorem import_spec {f : Files} {p : Package} {initial : List PStr} (hp : PlainPackage f p initial) {st : PkgState} (hi : PkgInv f p initial st) (s : PStr) :
    PkgInv f p initial (importSub f st s).1 ∧ (∀ t, t ∈ (importSub f st s).1.loaded ↔ t ∈ st.loaded ∨ t ∈ f.imports s) ∧
      (importSub f st s).2 = if s ∈ f.imports s then .ok () else .error (.importing s) := by
  unfold importSub
  by_cases hs : s ∈ st.loaded
  · rw [if_pos hs]
    obtain ⟨h1, h2⟩ := hi.closed s hs
    refine ⟨hi, fun t => ⟨.inl, ?_⟩, by rw [if_pos h1]⟩
    rintro (h | h)
    · exact h
    · exact h2 t h
  · rw [if_neg hs]
    obtain ⟨h1, h2⟩ := bind_fold (f.imports s) st
    refine ⟨?_, h1, rfl⟩
    simp only []
    generalize (f.imports s).foldl bindLoaded st = st' at h1 h2
    have hnew : ∀ k, k ∈ f.imports s → k ∈ f.imports k := fun k hk => (hp.loads s k hk).1
    refine ⟨?_, ?_, ?_, ?_, ?_, ?_, ?_, ?_⟩
    · intro k v hk
      rw [h2] at hk
      split at hk
      · rename_i hn
        cases hk
        refine answer_module hp (hnew k hn.1) (.inr ?_)
        simp only [decide_eq_true_eq]
        exact ⟨(h1 k).2 (.inr hn.1), fun hh => hn.2 (hi.before k hh)⟩
      · refine answer_mono' ?_ (hi.sound k v hk)
        simp only [decide_eq_true_eq]
        exact fun hh => ⟨(h1 k).2 (.inl hh.1), hh.2⟩
    · intro k hk
      rw [h2, if_neg]
      · exact hi.std k hk
      · rintro ⟨hn, _⟩
        exact (hp.names k (.inl (hnew k hn))).2.1 hk
    · intro k v hk hg
      rw [h2, if_neg]
      · exact hi.given k v hk hg
      · rintro ⟨hn, _⟩
        rw [not_given (hp.names k (.inl (hnew k hn))).2.2] at hg
        cases hg
    · intro t ht hti
      rw [h2]
      split
      · rfl
      · rename_i hn
        rcases (h1 t).1 ht with h | h
        · exact hi.bound t h hti
        · exact hi.bound t (Classical.byContradiction fun hc => hn ⟨h, hc⟩) hti
    · intro t ht
      exact (h1 t).2 (.inl (hi.before t ht))
    · intro t ht
      rcases (h1 t).1 ht with h | h
      · obtain ⟨a, b⟩ := hi.closed t h
        exact ⟨a, fun u hu => (h1 u).2 (.inl (b u hu))⟩
      · obtain ⟨a, b⟩ := hp.loads s t h
        exact ⟨a, fun u hu => (h1 u).2 (.inr (b u hu))⟩
    · intro k m hk
      rw [h2] at hk
      split at hk
      · rename_i hn
        cases hk
        exact ⟨rfl, (h1 k).2 (.inr hn.1)⟩
      · obtain ⟨a, b⟩ := hi.modules k m hk
        exact ⟨a, (h1 k).2 (.inl b)⟩
    · intro k o v hk hg ho hd
      rw [h2] at hd
      split at hd
      · rename_i hn
        rw [(hp.names k (.inl (hnew k hn.1))).1] at ho
        cases ho
      · exact (h1 o).2 (.inl (hi.owners k o v hk hg ho hd))

/-- storing what was found -/
theorem inv_store {f : Files} {p : Package} {initial : List PStr} {st : PkgState} (hi : PkgInv f p initial st) {k : PStr} {v : PkgVal}
    (ha : pkgAnswer f p (decide (k ∈ st.loaded ∧ k ∉ initial)) k = .ok v) (hm : ∀ m, v = .module m → k = m ∧ k ∈ st.loaded)
    (hstd : k ∉ p.std) (hg : dictGet p.given k = none) (ho : ∀ o, ownerOf p k = some o → o ∈ st.loaded) (hb : k ∈ st.loaded → v = .module k) :
    PkgInv f p initial { st with dict := dictPut st.dict k v } := by
  refine ⟨?_, ?_, ?_, ?_, hi.before, hi.closed, ?_, ?_⟩
  · intro k' v' h
    simp only [dictGet_put] at h
    split at h
    · rename_i e
      cases h
      rw [e]
      exact ha
    · exact hi.sound k' v' h
  · intro k' h
    simp only [dictGet_put]
    rw [if_neg (fun e : k' = k => hstd (e ▸ h))]
    exact hi.std k' h
  · intro k' v' h h'
    simp only [dictGet_put]
    rw [if_neg]
    · exact hi.given k' v' h h'
    · intro e
      rw [e, hg] at h'
      cases h'
  · intro s hs hsi
    simp only [dictGet_put]
    split
    · rename_i e
      rw [hb (e ▸ hs), e]
    · exact hi.bound s hs hsi
  · intro k' m h
    simp only [dictGet_put] at h
    split at h
    · rename_i e
      cases h
      rw [e]
      exact hm m rfl
    · exact hi.modules k' m h
  · intro k' o v' h1 h2 h3 h4
    simp only [dictGet_put] at h4
    split at h4
    · rename_i e
      exact ho o (e ▸ h3)
    · exact hi.owners k' o v' h1 h2 h3 h4

/-- the access to a listed submodule -/
theorem access_listed {f : Files} {p : Package} {initial : List PStr} (hp : PlainPackage f p initial) {st : PkgState} (hi : PkgInv f p initial st)
    {s : PStr} (hl : Listed p s) (n : Nat) :
    PkgInv f p initial (pkgAccess f p (n + 1) st s).1 ∧ (∀ t, t ∈ (pkgAccess f p (n + 1) st s).1.loaded ↔ t ∈ st.loaded ∨ t ∈ f.imports s) ∧
      (pkgAccess f p (n + 1) st s).2 = if s ∈ f.imports s then .ok (.module s) else .error (.importing s) := by
  obtain ⟨n1, n2, n3⟩ := hp.names s (.inr hl)
  rw [pkgAccess.eq_def]
  simp only []
  cases hd : dictGet st.dict s with
  | some v =>
    simp only []
    have ha := hi.sound s v hd
    unfold pkgAnswer at ha
    rw [if_neg n2, not_given n3] at ha
    simp only [n1, hl, ↓reduceIte] at ha
    split at ha
    · rename_i hs
      cases ha
      obtain ⟨_, h2⟩ := hi.modules s s hd
      refine ⟨hi, fun t => ⟨.inl, ?_⟩, by rw [if_pos hs]⟩
      rintro (h | h)
      · exact h
      · exact (hi.closed s h2).2 t h
    · cases ha
  | none =>
    simp only [pushed_spec, n1, if_pos (mem_all.2 (.inl hl))]
    obtain ⟨h1, h2, h3⟩ := import_spec hp hi s
    cases hr : importSub f st s with
    | mk st' r =>
      rw [hr] at h1 h2 h3
      cases r with
      | error e =>
        simp only [] at h1 h2 h3 ⊢
        refine ⟨h1, h2, ?_⟩
        split at h3
        · cases h3
        · cases h3
          rw [if_neg (by assumption)]
      | ok u =>
        simp only [] at h1 h2 h3 ⊢
        split at h3
        · rename_i hs
          have hld : s ∈ st'.loaded := (h2 s).2 (.inr hs)
          refine ⟨inv_store h1 (answer_module hp hs (.inl hl)) ?_ n2 (not_given n3) (fun o ho => by rw [n1] at ho; cases ho) (fun _ => rfl), h2, ?_⟩
          · intro m hm
            cases hm
            exact ⟨rfl, hld⟩
          · rw [if_pos hs]
        · cases h3

/-- any access -/
theorem access_spec {f : Files} {p : Package} {initial : List PStr} (hp : PlainPackage f p initial) {st : PkgState} (hi : PkgInv f p initial st)
    (k : PStr) (n : Nat) :
    PkgInv f p initial (pkgAccess f p (n + 2) st k).1 ∧
      (∀ t, t ∈ (pkgAccess f p (n + 2) st k).1.loaded ↔ t ∈ st.loaded ∨ ∃ s ∈ asked p (.access k), t ∈ f.imports s) ∧
      (pkgAccess f p (n + 2) st k).2 = pkgAnswer f p (decide (k ∈ st.loaded ∧ k ∉ initial)) k := by
  by_cases hstd : k ∈ p.std
  · have hd := hi.std k hstd
    have : pkgAccess f p (n + 2) st k = (st, .ok (.std k)) := by rw [pkgAccess.eq_def]; simp only [hd]
    rw [this]
    exact ⟨hi, fun t => by simp [asked, hstd], by simp [pkgAnswer, hstd]⟩
  cases hg : dictGet p.given k with
  | some v =>
    have hd := hi.given k v hstd hg
    have hmem : k ∈ dictKeys p.given := Classical.byContradiction fun hc => by rw [not_given hc] at hg; cases hg
    have : pkgAccess f p (n + 2) st k = (st, .ok (.val v)) := by rw [pkgAccess.eq_def]; simp only [hd]
    rw [this]
    exact ⟨hi, fun t => by simp [asked, hmem], by simp [pkgAnswer, hstd, hg]⟩
  | none =>
    have hng : k ∉ dictKeys p.given := dictGet_none.1 hg
    cases ho : ownerOf p k with
    | some o =>
      have hask : asked p (.access k) = [o] := by simp [asked, hstd, hng, ho]
      rw [hask]
      have hlo := owner_listed ho
      cases hd : dictGet st.dict k with
      | some v =>
        have : pkgAccess f p (n + 2) st k = (st, .ok v) := by rw [pkgAccess.eq_def]; simp only [hd]
        rw [this]
        have hol := hi.owners k o v hstd hg ho hd
        refine ⟨hi, fun t => ⟨.inl, ?_⟩, (hi.sound k v hd).symm⟩
        rintro (h | ⟨s, hs, ht⟩)
        · exact h
        · simp only [List.mem_singleton] at hs
          subst hs
          exact (hi.closed s hol).2 t ht
      | none =>
        obtain ⟨h1, h2, h3⟩ := access_listed hp hi hlo n
        have hans : ∀ b, pkgAnswer f p b k = (if o ∈ f.imports o then match f.member o k with
            | some v => .ok (.val v)
            | .none => .error (.noMember o k)
          else .error (.importing o)) := by
          intro b
          simp only [pkgAnswer, hstd, ↓reduceIte, hg, ho]
          by_cases hoi : o ∈ f.imports o <;> simp [hoi] <;> rfl
        rw [pkgAccess.eq_def]
        simp only [hd, pushed_spec, ho]
        cases hr : pkgAccess f p (n + 1) st o with
        | mk st' r =>
          rw [hr] at h1 h2 h3
          simp only [] at h1 h2 h3
          have h2' : ∀ t, t ∈ st'.loaded ↔ t ∈ st.loaded ∨ ∃ s ∈ [o], t ∈ f.imports s := by simpa using h2
          by_cases hoi : o ∈ f.imports o
          · rw [if_pos hoi] at h3
            subst h3
            simp only []
            have hol : o ∈ st'.loaded := (h2 o).2 (.inr hoi)
            cases hm : f.member o k with
            | none =>
              refine ⟨h1, h2', ?_⟩
              simp only [hans, hoi, ↓reduceIte, hm]
            | some v =>
              refine ⟨inv_store h1 (by simp only [hans, hoi, ↓reduceIte, hm]) (fun m h => by cases h) hstd hg
                (fun o' ho' => by rw [ho] at ho'; cases ho'; exact hol) (fun hk => ?_), h2', by simp only [hans, hoi, ↓reduceIte, hm]⟩
              have := (hp.names k (.inl (h1.closed k hk).1)).1
              rw [ho] at this
              cases this
          · rw [if_neg hoi] at h3
            subst h3
            exact ⟨h1, h2', by simp only [hans, hoi, ↓reduceIte]⟩
    | none =>
      by_cases hl : Listed p k
      · have hask : asked p (.access k) = [k] := by simp [asked, hstd, hng, ho, hl]
        rw [hask]
        obtain ⟨h1, h2, h3⟩ := access_listed hp hi hl (n + 1)
        refine ⟨h1, by simpa using h2, ?_⟩
        rw [h3]
        simp only [pkgAnswer, hstd, ↓reduceIte, hg, ho, hl]
      · have hask : asked p (.access k) = [] := by simp [asked, hstd, hng, ho, hl]
        rw [hask]
        have hna : k ∉ allNames p := by
          rw [mem_all]
          rintro (h | h)
          · exact hl h
          · exact h ho
        cases hd : dictGet st.dict k with
        | some v =>
          have : pkgAccess f p (n + 2) st k = (st, .ok v) := by rw [pkgAccess.eq_def]; simp only [hd]
          rw [this]
          exact ⟨hi, fun t => by simp, (hi.sound k v hd).symm⟩
        | none =>
          have : pkgAccess f p (n + 2) st k = (st, .error (.noAttribute k)) := by
            rw [pkgAccess.eq_def]
            simp only [hd, pushed_spec, ho, if_neg hna]
          rw [this]
          refine ⟨hi, fun t => by simp, ?_⟩
          have : ¬ (k ∈ st.loaded ∧ k ∉ initial) := by
            rintro ⟨a, b⟩
            rw [hi.bound k a b] at hd
            cases hd
          simp only [pkgAnswer, hstd, ↓reduceIte, hg, ho, hl, this, decide_false]
          rfl

theorem start_std (l : List PStr) (k : PStr) : ∀ d : PyDict PStr PkgVal,
    dictGet (l.foldl (fun d k => dictPut d k (.std k)) d) k = if k ∈ l then some (.std k) else dictGet d k := by
  induction l with
  | nil => intro d; simp
  | cons a r ih =>
    intro d
    rw [List.foldl_cons, ih, dictGet_put]
    by_cases h1 : k ∈ r
    · simp [h1]
    · by_cases h2 : k = a <;> simp [h1, h2]

theorem get_map_val (g : PyDict PStr PyVal) (k : PStr) : dictGet (g.map fun e => (e.1, PkgVal.val e.2)) k = (dictGet g k).map .val := by
  induction g with
  | nil => rfl
  | cons e r ih =>
    obtain ⟨a, v⟩ := e
    simp only [List.map_cons, dictGet]
    split
    · rfl
    · exact ih

theorem start_inv {f : Files} {p : Package} {initial : List PStr} (hp : PlainPackage f p initial) : PkgInv f p initial (pkgStart p initial) := by
  have hd : ∀ k, dictGet (pkgStart p initial).dict k = if k ∈ p.std then some (.std k) else (dictGet p.given k).map .val := by
    intro k
    simp only [pkgStart, start_std, get_map_val]
  refine ⟨?_, ?_, ?_, ?_, fun s h => h, hp.before, ?_, ?_⟩
  · intro k v h
    rw [hd] at h
    unfold pkgAnswer
    split at h
    · rename_i hk; rw [if_pos hk]; cases h; rfl
    · rename_i hk
      rw [if_neg hk]
      cases hg : dictGet p.given k with
      | none => rw [hg] at h; cases h
      | some x => rw [hg] at h; cases h; rfl
  · intro k hk
    rw [hd, if_pos hk]
  · intro k v hk hg
    rw [hd, if_neg hk, hg]
    rfl
  · intro s hs hn
    exact absurd hs hn
  · intro k m h
    rw [hd] at h
    split at h
    · cases h
    · cases hg : dictGet p.given k with
      | none => rw [hg] at h; cases h
      | some x => rw [hg] at h; cases h
  · intro k o v h1 h2 _ h4
    rw [hd, if_neg h1, h2] at h4
    cases h4

theorem after_inv {f : Files} {p : Package} {initial : List PStr} (hp : PlainPackage f p initial) (n : Nat) (ops : List PkgOp) :
    PkgInv f p initial (pkgAfter f p (n + 2) initial ops) ∧ ∀ s, s ∈ (pkgAfter f p (n + 2) initial ops).loaded ↔ Loaded f p initial ops s := by
  have key : ∀ (ops : List PkgOp) (st : PkgState), PkgInv f p initial st →
      PkgInv f p initial (ops.foldl (pkgStep f p (n + 2)) st) ∧
      ∀ s, s ∈ (ops.foldl (pkgStep f p (n + 2)) st).loaded ↔ s ∈ st.loaded ∨ ∃ op ∈ ops, ∃ t ∈ asked p op, s ∈ f.imports t := by
    intro ops
    induction ops with
    | nil => intro st hi; exact ⟨hi, fun s => by simp⟩
    | cons op r ih =>
      intro st hi
      have hstep : PkgInv f p initial (pkgStep f p (n + 2) st op) ∧
          ∀ t, t ∈ (pkgStep f p (n + 2) st op).loaded ↔ t ∈ st.loaded ∨ ∃ s ∈ asked p op, t ∈ f.imports s := by
        cases op with
        | access k => exact ⟨(access_spec hp hi k n).1, (access_spec hp hi k n).2.1⟩
        | import_ s => exact ⟨(import_spec hp hi s).1, by simpa [asked, pkgStep] using (import_spec hp hi s).2.1⟩
      obtain ⟨h1, h2⟩ := ih _ hstep.1
      refine ⟨h1, fun s => ?_⟩
      rw [List.foldl_cons, h2, hstep.2]
      simp only [List.mem_cons, exists_eq_or_imp, or_assoc]
  exact key ops _ (start_inv hp)

/-! ### dir -/

theorem mem_distinct (l : List PStr) (k : PStr) : k ∈ distinct l ↔ k ∈ l := by
  induction l generalizing k with
  | nil => rfl
  | cons a r ih =>
    simp only [distinct]
    split
    · rename_i h
      rw [ih] at h
      rw [ih, List.mem_cons]
      constructor
      · exact .inr
      · rintro (rfl | h') <;> assumption
    · rw [List.mem_cons, List.mem_cons, ih]

theorem nodup_distinct (l : List PStr) : (distinct l).Nodup := by
  induction l with
  | nil => exact List.nodup_nil
  | cons a r ih =>
    simp only [distinct]
    split
    · exact ih
    · rename_i h
      exact List.nodup_cons.2 ⟨h, ih⟩

theorem mem_sortInsert (lt : PStr → PStr → Bool) (x : PStr) (l : List PStr) (k : PStr) : k ∈ sortInsert lt x l ↔ k = x ∨ k ∈ l := by
  induction l with
  | nil => simp [sortInsert]
  | cons y r ih =>
    simp only [sortInsert]
    split
    · rw [List.mem_cons, ih, List.mem_cons]
      grind
    · rw [List.mem_cons, List.mem_cons]

theorem mem_stableSort (lt : PStr → PStr → Bool) (l : List PStr) (k : PStr) : k ∈ stableSort lt l ↔ k ∈ l := by
  induction l with
  | nil => rfl
  | cons x r ih => rw [stableSort, mem_sortInsert, ih, List.mem_cons]

theorem names_insert_sorted (x : PStr) (l : List PStr) (hl : l.Pairwise fun a b => strLt a b = true) (hx : x ∉ l) :
    (sortInsert strLt x l).Pairwise fun a b => strLt a b = true := by
  induction l with
  | nil => simp [sortInsert]
  | cons y r ih =>
    rw [List.pairwise_cons] at hl
    rw [List.mem_cons, not_or] at hx
    simp only [sortInsert]
    split
    · rename_i hlt
      rw [List.pairwise_cons]
      refine ⟨fun z hz => ?_, ih hl.2 hx.2⟩
      rcases (mem_sortInsert strLt x r z).1 hz with rfl | hz
      · exact hlt
      · exact hl.1 z hz
    · rename_i hlt
      have hxy : strLt x y = true := by
        rcases strLt_total hx.1 with h | h
        · exact h
        · exact absurd h hlt
      rw [List.pairwise_cons]
      refine ⟨fun z hz => ?_, List.pairwise_cons.2 hl⟩
      rcases List.mem_cons.1 hz with rfl | hz
      · exact hxy
      · exact strLt_trans hxy (hl.1 z hz)

theorem names_sorted (l : List PStr) (hl : l.Nodup) : (stableSort strLt l).Pairwise fun a b => strLt a b = true := by
  induction l with
  | nil => exact List.Pairwise.nil
  | cons x r ih =>
    rw [List.nodup_cons] at hl
    exact names_insert_sorted x _ (ih hl.2) (fun h => hl.1 ((mem_stableSort strLt r x).1 h))

end Flatland
