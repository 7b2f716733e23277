import Verif.Spec.Properties
import Verif.Proofs.Mappings
/-! Lemmas about class and instance properties. -/
namespace Flatland
open Spec

variable {C D I K V : Type} [DecidableEq C] [DecidableEq D] [DecidableEq I] [DecidableEq K]

/-! ### dicts -/

theorem update_get {E : Type} (d e : PyDict K E) (hn : (dictKeys e).Nodup) (k : K) :
    dictGet (dictUpdate d e) k = (dictGet e k).or (dictGet d k) := by
  unfold dictUpdate
  induction e generalizing d with
  | nil => simp [dictGet]
  | cons p e ih =>
    obtain ⟨k0, v0⟩ := p
    simp only [dictKeys, List.map_cons, List.nodup_cons] at hn
    simp only [List.foldl_cons]
    rw [ih _ hn.2, dictGet_put, dictGet]
    by_cases h : k0 = k
    · subst h
      have : dictGet e k0 = none := dictGet_none.2 hn.1
      simp [this]
    · simp [h, show k ≠ k0 from fun h' => h h'.symm]

theorem dictGet_map {E E' : Type} (d : PyDict K E) (g : E → E') (k : K) : dictGet (d.map fun p => (p.1, g p.2)) k = (dictGet d k).map g := by
  induction d with
  | nil => rfl
  | cons p d ih =>
    simp only [List.map_cons, dictGet]
    split <;> simp_all

omit [DecidableEq K] in
theorem dictKeys_map {E E' : Type} (d : PyDict K E) (g : E → E') : dictKeys (d.map fun p => (p.1, g p.2)) = dictKeys d := by
  simp [dictKeys, Function.comp_def]

theorem clear_get {E : Type} (ks : List K) (f : PyDict K E) (x : E) (k : K) :
    dictGet (ks.foldl (fun f k => dictPut f k x) f) k = if k ∈ ks then some x else dictGet f k := by
  induction ks generalizing f with
  | nil => simp
  | cons k0 ks ih =>
    rw [List.foldl_cons, ih, dictGet_put]
    by_cases h1 : k ∈ ks <;> by_cases h2 : k = k0 <;> simp [h1, h2]

theorem clear_nodup {E : Type} (ks : List K) (f : PyDict K E) (x : E) (h : (dictKeys f).Nodup) :
    (dictKeys (ks.foldl (fun f k => dictPut f k x) f)).Nodup := by
  induction ks generalizing f with
  | nil => exact h
  | cons k0 ks ih => exact ih _ (nodup_dictKeys_put h _ _)

theorem update_nodup {E : Type} (d e : PyDict K E) (h : (dictKeys d).Nodup) : (dictKeys (dictUpdate d e)).Nodup := by
  unfold dictUpdate
  induction e generalizing d with
  | nil => exact h
  | cons p e ih => exact ih _ (nodup_dictKeys_put h _ _)

theorem dictGet_mem {E : Type} {d : PyDict K E} (hn : (dictKeys d).Nodup) (k : K) (v : E) : (k, v) ∈ d ↔ dictGet d k = some v := by
  induction d with
  | nil => simp [dictGet]
  | cons p d ih =>
    obtain ⟨k0, v0⟩ := p
    simp only [dictKeys, List.map_cons, List.nodup_cons] at hn
    rw [dictGet, List.mem_cons]
    by_cases h : k0 = k
    · subst h
      simp only [if_true, Option.some.injEq, Prod.mk.injEq, true_and]
      constructor
      · rintro (h | h)
        · exact h.symm
        · exact absurd (List.mem_map_of_mem (f := Prod.fst) h) hn.1
      · intro h; exact .inl h.symm
    · simp only [if_neg h, ← ih hn.2, Prod.mk.injEq]
      constructor
      · rintro (⟨h', _⟩ | h')
        · exact absurd h'.symm h
        · exact h'
      · exact .inr

/-! ### items -/

theorem itemsIn_seen (seen : List K) (f : PropFrame K V) (k : K) : k ∈ (itemsIn seen f).2 ↔ k ∈ seen ∨ k ∈ dictKeys f := by
  induction f generalizing seen with
  | nil => simp [itemsIn, dictKeys]
  | cons p f ih =>
    obtain ⟨k0, v0⟩ := p
    rw [itemsIn]
    by_cases h : k0 ∈ seen
    · rw [if_pos h, ih]
      simp only [dictKeys, List.map_cons, List.mem_cons]
      constructor
      · rintro (h | h) <;> simp [h]
      · rintro (h' | rfl | h') <;> simp [*]
    · rw [if_neg h]
      simp only
      rw [ih]
      simp only [dictKeys, List.map_cons, List.mem_cons]
      grind

theorem itemsIn_mem (seen : List K) (f : PropFrame K V) (k : K) (v : V) :
    (k, v) ∈ (itemsIn seen f).1 ↔ k ∉ seen ∧ dictGet f k = some (some v) := by
  induction f generalizing seen with
  | nil => simp [itemsIn, dictGet]
  | cons p f ih =>
    obtain ⟨k0, v0⟩ := p
    rw [itemsIn, dictGet]
    by_cases h : k0 ∈ seen
    · rw [if_pos h, ih]
      by_cases h' : k0 = k
      · subst h'; simp [h]
      · simp [h']
    · rw [if_neg h]
      simp only [List.mem_append]
      rw [ih]
      cases v0 with
      | none =>
        by_cases h' : k0 = k
        · subst h'; simp
        · simp [h', show k ≠ k0 from fun h'' => h' h''.symm]
      | some x =>
        by_cases h' : k0 = k
        · subst h'; simp [h, eq_comm]
        · simp [h', show k ≠ k0 from fun h'' => h' h''.symm]

theorem itemsIn_nodup (seen : List K) (f : PropFrame K V) : ((itemsIn seen f).1.map Prod.fst).Nodup := by
  induction f generalizing seen with
  | nil => simp [itemsIn]
  | cons p f ih =>
    obtain ⟨k0, v0⟩ := p
    rw [itemsIn]
    split
    · exact ih _
    · cases v0 with
      | none => simpa using ih _
      | some x =>
        simp only [Option.map_some, Option.toList_some, List.cons_append, List.nil_append, List.map_cons, List.nodup_cons]
        refine ⟨?_, ih _⟩
        intro h
        obtain ⟨⟨k, v⟩, hm, rfl⟩ := List.mem_map.1 h
        simp [itemsIn_mem] at hm

theorem frameItems_mem (seen : List K) (fs : List (PropFrame K V)) (k : K) (v : V) :
    (k, v) ∈ frameItems seen fs ↔ k ∉ seen ∧ frameGet k fs = some v := by
  induction fs generalizing seen with
  | nil => simp [frameItems, frameGet]
  | cons f fs ih =>
    rw [frameItems, List.mem_append, itemsIn_mem, ih, itemsIn_seen, frameGet]
    cases h : dictGet f k with
    | none =>
      have : k ∉ dictKeys f := dictGet_none.1 h
      simp [this]
    | some x =>
      have : k ∈ dictKeys f := dictGet_isSome.1 (by simp [h])
      simp [this]

theorem frameItems_nodup (seen : List K) (fs : List (PropFrame K V)) : ((frameItems seen fs).map Prod.fst).Nodup := by
  induction fs generalizing seen with
  | nil => simp [frameItems]
  | cons f fs ih =>
    rw [frameItems, List.map_append, List.nodup_append]
    refine ⟨itemsIn_nodup _ _, ih _, ?_⟩
    intro a ha b hb hab
    subst hab
    obtain ⟨⟨k, v⟩, hm, rfl⟩ := List.mem_map.1 ha
    obtain ⟨⟨k', v'⟩, hm', hk⟩ := List.mem_map.1 hb
    simp only at hk
    subst hk
    rw [frameItems_mem, itemsIn_seen] at hm'
    rw [itemsIn_mem] at hm
    have : k' ∈ dictKeys f := dictGet_isSome.1 (by simp [hm.2])
    exact hm'.1 (.inr this)

omit [DecidableEq C] [DecidableEq I] in
theorem typeItems_keys (w : PropWorld C D I K V) (s : PropState C D I K V) (d : D) (c : C) (k : K) :
    k ∈ (typeItems w s d c).map Prod.fst ↔ (typeGet w s d c k).isSome := by
  unfold typeItems typeGet
  rw [List.mem_map]
  constructor
  · rintro ⟨⟨k', v⟩, hm, rfl⟩
    rw [frameItems_mem] at hm
    simp [hm.2]
  · intro h
    obtain ⟨v, hv⟩ := Option.isSome_iff_exists.1 h
    exact ⟨(k, v), (frameItems_mem _ _ _ _).2 ⟨by simp, hv⟩, rfl⟩

/-! ### the simulation -/

omit [DecidableEq C] [DecidableEq D] [DecidableEq I] [DecidableEq K] in
theorem descriptor_self {w : PropWorld C D I K V} (hw : SelfFirst w) {c : C} {d : D} (h : w.member c = some d) : descriptorOf w c = some d := by
  obtain ⟨cs, hcs⟩ := hw c
  simp [descriptorOf, hcs, h]

omit [DecidableEq C] [DecidableEq D] [DecidableEq I] [DecidableEq K] in
theorem declarer_member (w : PropWorld C D I K V) (c : C) : descriptorOf w c = (declarer w c).bind w.member := by
  unfold descriptorOf declarer
  generalize w.mro c = l
  induction l with
  | nil => rfl
  | cons a l ih =>
    rw [List.findSome?_cons, List.find?_cons]
    cases h : w.member a with
    | none => simpa [h] using ih
    | some d => simp [h]

omit [DecidableEq C] [DecidableEq D] [DecidableEq I] [DecidableEq K] in
theorem declarer_has {w : PropWorld C D I K V} {c o : C} (h : declarer w c = some o) : (w.member o).isSome := by
  have := List.find?_some h
  simpa using this

omit [DecidableEq C] [DecidableEq D] [DecidableEq I] [DecidableEq K] in
theorem descriptor_iff {w : PropWorld C D I K V} (c : C) : (descriptorOf w c).isSome ↔ (declarer w c).isSome := by
  rw [declarer_member]
  cases h : declarer w c with
  | none => simp
  | some o => simpa using declarer_has h

omit [DecidableEq C] [DecidableEq D] [DecidableEq I] [DecidableEq K] in
theorem declarer_eq {w : PropWorld C D I K V} (ho : OwnDeclarations w) {a c : C} {d : D} (hc : descriptorOf w c = some d) :
    declarer w a = declarer w c ↔ descriptorOf w a = some d := by
  constructor
  · intro h
    rw [declarer_member] at hc ⊢
    rw [h, hc]
  · intro h
    rw [declarer_member] at hc h
    cases h1 : declarer w a with
    | none => simp [h1] at h
    | some o =>
      cases h2 : declarer w c with
      | none => simp [h2] at hc
      | some o' =>
        simp only [h1, h2, Option.bind_some] at h hc
        rw [ho o o' d h hc]

/-- the frames and the marks say the same -/
structure Agrees (w : PropWorld C D I K V) (s : PropState C D I K V) (m : Marks C I K V) : Prop where
  own : ∀ c d, descriptorOf w c = some d → ∀ k, dictGet (baseFrame w s d c) k = m.cls c k
  other : ∀ c d, descriptorOf w c ≠ some d → s.map d c = none
  overlay : ∀ i f, s.locals i = .overlay f → m.closed i = false ∧ (dictKeys f).Nodup ∧ ∀ k, dictGet f k = m.inst i k
  replaced : ∀ i e, s.locals i = .replaced e → m.closed i = true ∧ (dictKeys e).Nodup ∧ ∀ k, dictGet e k = (m.inst i k).join

omit [DecidableEq I] in
theorem frames_marks {w : PropWorld C D I K V} {s : PropState C D I K V} {m : Marks C I K V} (hw : SelfFirst w) (ho : OwnDeclarations w)
    (ha : Agrees w s m) {c : C} {d : D} (hc : descriptorOf w c = some d) (k : K) (l : List C) (hl : l.findSome? w.member = some d) :
    frameGet k (typeFrames w s d l) = (((upTo w l).filter fun a => decide (declarer w a = declarer w c)).findSome? fun a => m.cls a k).join := by
  induction l with
  | nil => simp at hl
  | cons a l ih =>
    rw [List.findSome?_cons] at hl
    rw [typeFrames, upTo]
    cases hm : w.member a with
    | some d' =>
      simp only [hm, Option.some.injEq] at hl
      subst hl
      have hd := descriptor_self hw hm
      have hde := (declarer_eq ho hc).2 hd
      have := ha.own a d' hd k
      rw [baseFrame, if_pos hm] at this
      simp only [if_true, Option.isSome_some, List.filter_cons, hde, decide_true, List.filter_nil, List.findSome?_cons, List.findSome?_nil]
      simp only [frameGet]
      rw [this]
      cases m.cls a k <;> rfl
    | none =>
      simp only [hm] at hl
      simp only [reduceCtorEq, if_false, Option.isSome_none, Bool.false_eq_true, List.filter_cons]
      by_cases hd : descriptorOf w a = some d
      · have hde := (declarer_eq ho hc).2 hd
        have := ha.own a d hd k
        rw [baseFrame, hm] at this
        simp only [reduceCtorEq, if_false] at this
        simp only [hde, decide_true, if_true, List.findSome?_cons]
        cases hf : s.map d a with
        | none =>
          simp only [hf, Option.getD_none, dictGet] at this
          rw [← this]
          exact ih hl
        | some f =>
          simp only [hf, Option.getD_some] at this
          simp only [frameGet]
          rw [this]
          cases m.cls a k with
          | none => exact ih hl
          | some x => rfl
      · have hde : ¬ declarer w a = declarer w c := fun h => hd ((declarer_eq ho hc).1 h)
        simp only [hde, decide_false, Bool.false_eq_true, if_false]
        rw [ha.other a d hd]
        exact ih hl

omit [DecidableEq I] in
theorem typeGet_sees {w : PropWorld C D I K V} {s : PropState C D I K V} {m : Marks C I K V} (hw : SelfFirst w) (ho : OwnDeclarations w)
    (ha : Agrees w s m) {c : C} {d : D} (hc : descriptorOf w c = some d) (k : K) : typeGet w s d c k = classSees w m c k :=
  frames_marks hw ho ha hc k _ hc

omit [DecidableEq I] in
theorem overlayGet_sees {w : PropWorld C D I K V} {s : PropState C D I K V} {m : Marks C I K V} (hw : SelfFirst w) (ho : OwnDeclarations w)
    (ha : Agrees w s m) {i : I} {d : D} (hc : descriptorOf w (w.classOf i) = some d) {f : PropFrame K V} (hf : s.locals i = .overlay f) (k : K) :
    overlayGet w s d (w.classOf i) f k = instSees w m i k := by
  obtain ⟨h1, _, h2⟩ := ha.overlay i f hf
  unfold overlayGet instSees
  rw [h2 k]
  cases m.inst i k with
  | none => simp [h1, typeGet_sees hw ho ha hc]
  | some x => rfl

omit [DecidableEq I] in
theorem propGet_sees {w : PropWorld C D I K V} {s : PropState C D I K V} {m : Marks C I K V} (hw : SelfFirst w) (ho : OwnDeclarations w)
    (ha : Agrees w s m) (t : PropTarget C I) (k : K) : propGet w s t k = sees w m t k := by
  cases t with
  | cls c =>
    have := descriptor_iff (w := w) c
    simp only [propGet, sees]
    cases hd : descriptorOf w c with
    | none =>
      rw [hd] at this
      simp [show ¬ (declarer w _).isSome = true from fun h => by simpa using this.2 h]
    | some d =>
      rw [hd] at this
      rw [if_pos (this.1 rfl)]
      exact typeGet_sees hw ho ha hd k
  | inst i =>
    have := descriptor_iff (w := w) (w.classOf i)
    simp only [propGet, sees]
    cases hd : descriptorOf w (w.classOf i) with
    | none =>
      rw [hd] at this
      simp [show ¬ (declarer w _).isSome = true from fun h => by simpa using this.2 h]
    | some d =>
      rw [hd] at this
      rw [if_pos (this.1 rfl)]
      cases hl : s.locals i with
      | overlay f => exact overlayGet_sees hw ho ha hd hl k
      | replaced e =>
        obtain ⟨h1, _, h2⟩ := ha.replaced i e hl
        simp only
        rw [h2 k]
        unfold instSees
        cases m.inst i k <;> simp [h1]

omit [DecidableEq I] [DecidableEq K] in
theorem baseFrame_put {w : PropWorld C D I K V} (ho : OwnDeclarations w) (s : PropState C D I K V) (d d' : D) (c c' : C) (f : PropFrame K V)
    (h' : c' ≠ c ∨ d' = d) :
    baseFrame w (putBase w s d c f) d' c' = if c' = c then f else baseFrame w s d' c' := by
  unfold putBase baseFrame
  by_cases hm : w.member c = some d
  · rw [if_pos hm]
    simp only
    by_cases hc : c' = c
    · subst hc
      rcases h' with h' | h'
      · exact absurd rfl h'
      · subst h'; simp [hm]
    · rw [if_neg hc]
      by_cases hm' : w.member c' = some d'
      · rw [if_pos hm', if_pos hm']
        by_cases hd : d' = d
        · subst hd; exact absurd (ho _ _ _ hm' hm) hc
        · rw [if_neg hd]
      · rw [if_neg hm', if_neg hm']
  · rw [if_neg hm]
    simp only
    by_cases hc : c' = c
    · subst hc
      rcases h' with h' | h'
      · exact absurd rfl h'
      · subst h'; simp [hm]
    · simp [hc]

omit [DecidableEq I] in
/-- writing the base frame of a class -/
theorem agrees_putBase {w : PropWorld C D I K V} {s : PropState C D I K V} {m m' : Marks C I K V} (ho : OwnDeclarations w) (ha : Agrees w s m)
    {c : C} {d : D} (hc : descriptorOf w c = some d) (f : PropFrame K V) (h1 : ∀ k, dictGet f k = m'.cls c k)
    (h2 : ∀ c' k, c' ≠ c → m'.cls c' k = m.cls c' k) (h3 : m'.inst = m.inst) (h4 : m'.closed = m.closed) : Agrees w (putBase w s d c f) m' := by
  constructor
  · intro c' d' hd' k
    have hh : c' ≠ c ∨ d' = d := by
      by_cases h : c' = c
      · subst h; rw [hc] at hd'; exact .inr (Option.some.inj hd').symm
      · exact .inl h
    rw [baseFrame_put ho _ _ _ _ _ _ hh]
    by_cases h : c' = c
    · subst h; rw [if_pos rfl]; exact h1 k
    · rw [if_neg h, h2 c' k h]; exact ha.own c' d' hd' k
  · intro c' d' hd'
    unfold putBase
    split
    · exact ha.other c' d' hd'
    · simp only
      rw [if_neg]
      · exact ha.other c' d' hd'
      · rintro ⟨rfl, rfl⟩; exact hd' hc
  · intro i g hg
    rw [h3, h4]
    apply ha.overlay i g
    unfold putBase at hg
    split at hg <;> exact hg
  · intro i g hg
    rw [h3, h4]
    apply ha.replaced i g
    unfold putBase at hg
    split at hg <;> exact hg

omit [DecidableEq C] in
/-- writing an instance's storage -/
theorem agrees_overlay {w : PropWorld C D I K V} {s : PropState C D I K V} {m m' : Marks C I K V} (ha : Agrees w s m) (i : I) (f : PropFrame K V)
    (h0 : m'.closed i = false) (hn : (dictKeys f).Nodup) (h1 : ∀ k, dictGet f k = m'.inst i k) (h2 : ∀ j, j ≠ i → m'.inst j = m.inst j ∧ m'.closed j = m.closed j)
    (h3 : m'.cls = m.cls) : Agrees w (putLocal s i (.overlay f)) m' := by
  constructor
  · intro c d hd k; rw [h3]; exact ha.own c d hd k
  · exact ha.other
  · intro j g hg
    simp only [putLocal] at hg
    by_cases hj : j = i
    · subst hj
      simp only [if_true, LocalProps.overlay.injEq] at hg
      subst hg
      exact ⟨h0, hn, h1⟩
    · rw [if_neg hj] at hg
      rw [(h2 j hj).1, (h2 j hj).2]
      exact ha.overlay j g hg
  · intro j g hg
    simp only [putLocal] at hg
    by_cases hj : j = i
    · subst hj; simp at hg
    · rw [if_neg hj] at hg
      rw [(h2 j hj).1, (h2 j hj).2]
      exact ha.replaced j g hg

omit [DecidableEq C] in
theorem agrees_replaced {w : PropWorld C D I K V} {s : PropState C D I K V} {m m' : Marks C I K V} (ha : Agrees w s m) (i : I) (e : PyDict K V)
    (h0 : m'.closed i = true) (hn : (dictKeys e).Nodup) (h1 : ∀ k, dictGet e k = (m'.inst i k).join) (h2 : ∀ j, j ≠ i → m'.inst j = m.inst j ∧ m'.closed j = m.closed j)
    (h3 : m'.cls = m.cls) : Agrees w (putLocal s i (.replaced e)) m' := by
  constructor
  · intro c d hd k; rw [h3]; exact ha.own c d hd k
  · exact ha.other
  · intro j g hg
    simp only [putLocal] at hg
    by_cases hj : j = i
    · subst hj; simp at hg
    · rw [if_neg hj] at hg
      rw [(h2 j hj).1, (h2 j hj).2]
      exact ha.overlay j g hg
  · intro j g hg
    simp only [putLocal] at hg
    by_cases hj : j = i
    · subst hj
      simp only [if_true, LocalProps.replaced.injEq] at hg
      subst hg
      exact ⟨h0, hn, h1⟩
    · rw [if_neg hj] at hg
      rw [(h2 j hj).1, (h2 j hj).2]
      exact ha.replaced j g hg

/-! ### marks after several writes -/

theorem markMany_cls (m : Marks C I K V) (c : C) (pairs : List (K × V)) :
    let m' := pairs.foldl (fun m p => mark m (.cls c) p.1 (some (some p.2))) m
    m'.inst = m.inst ∧ m'.closed = m.closed ∧ (∀ c' k, c' ≠ c → m'.cls c' k = m.cls c' k) ∧
      ∀ k, m'.cls c k = ((dictGet (dictOf pairs) k).map some).or (m.cls c k) := by
  intro m'
  rcases List.eq_nil_or_concat pairs with h | ⟨ps, q, h⟩
  · subst h; simp [m', dictOf, dictGet]
  · subst h
    have ih := markMany_cls m c ps
    simp only at ih
    obtain ⟨i1, i2, i3, i4⟩ := ih
    simp only [m', List.concat_eq_append, List.foldl_append, List.foldl_cons, List.foldl_nil, mark, markClass]
    refine ⟨i1, i2, fun c' k hc => ?_, fun k => ?_⟩
    · rw [if_neg (fun h => hc h.1)]; exact i3 c' k hc
    · have : dictOf (ps ++ [q]) = dictPut (dictOf ps) q.1 q.2 := by simp [dictOf]
      rw [this, dictGet_put]
      by_cases hk : k = q.1
      · simp [hk]
      · simp [hk]; exact i4 k
termination_by pairs.length

theorem markMany_inst (m : Marks C I K V) (i : I) (pairs : List (K × V)) :
    let m' := pairs.foldl (fun m p => mark m (.inst i) p.1 (some (some p.2))) m
    m'.cls = m.cls ∧ m'.closed = m.closed ∧ (∀ j, j ≠ i → m'.inst j = m.inst j) ∧
      ∀ k, m'.inst i k = ((dictGet (dictOf pairs) k).map some).or (m.inst i k) := by
  intro m'
  rcases List.eq_nil_or_concat pairs with h | ⟨ps, q, h⟩
  · subst h; simp [m', dictOf, dictGet]
  · subst h
    have ih := markMany_inst m i ps
    simp only at ih
    obtain ⟨i1, i2, i3, i4⟩ := ih
    simp only [m', List.concat_eq_append, List.foldl_append, List.foldl_cons, List.foldl_nil, mark, markInst]
    refine ⟨i1, i2, fun j hj => ?_, fun k => ?_⟩
    · funext k; rw [if_neg (fun h => hj h.1)]; exact congrFun (i3 j hj) k
    · have : dictOf (ps ++ [q]) = dictPut (dictOf ps) q.1 q.2 := by simp [dictOf]
      rw [this, dictGet_put]
      by_cases hk : k = q.1
      · simp [hk]
      · simp [hk]; exact i4 k
termination_by pairs.length

theorem update_some_get {E : Type} (f : PyDict K (Option E)) (pairs : List (K × E)) (k : K) :
    dictGet (dictUpdate f ((dictOf pairs).map fun p => (p.1, some p.2))) k = ((dictGet (dictOf pairs) k).map some).or (dictGet f k) := by
  rw [update_get _ _ (by rw [dictKeys_map]; exact dictOf_nodup _), dictGet_map]

theorem readRes_eq (x : Option V) : (match x with | none => PropRes.keyError | some v => PropRes.value (some v)) = readRes x := rfl

/-! ### one step -/

theorem typeOp_agrees {w : PropWorld C D I K V} {s : PropState C D I K V} {m : Marks C I K V} (hw : SelfFirst w) (ho : OwnDeclarations w)
    (ha : Agrees w s m) {c : C} {d : D} (hc : descriptorOf w c = some d) (op : PropOp K V) (hop : ∀ k v, op ≠ .setdefault k v) :
    (typeOp w s d c op).2 = (specOp w m (.cls c) op).2 ∧ Agrees w (typeOp w s d c op).1 (specOp w m (.cls c) op).1 := by
  have hs : ∀ k, sees w m (.cls c) k = typeGet w s d c k := fun k => by
    rw [typeGet_sees hw ho ha hc, sees, if_pos ((descriptor_iff c).1 (by rw [hc]; rfl))]
  have hput : ∀ k x, Agrees w (putBase w s d c (dictPut (baseFrame w s d c) k x)) (mark m (.cls c) k (some x)) := fun k x => by
    refine agrees_putBase ho ha hc _ (fun k' => ?_) (fun c' k' hc' => ?_) rfl rfl
    · rw [dictGet_put, ha.own c d hc]; simp [mark, markClass]
    · simp [mark, markClass, hc']
  cases op with
  | get k => simp only [typeOp, specOp, hs]; exact ⟨rfl, ha⟩
  | set k v => exact ⟨rfl, hput k _⟩
  | del k =>
    simp only [typeOp, specOp, hs]
    cases typeGet w s d c k with
    | none => exact ⟨rfl, ha⟩
    | some v => exact ⟨rfl, hput k _⟩
  | clear =>
    refine ⟨rfl, ?_⟩
    simp only [typeOp, specOp, clearAll]
    refine agrees_putBase ho ha hc _ (fun k => ?_) (fun c' k hc' => ?_) rfl rfl
    · rw [clear_get, ha.own c d hc]
      simp only [typeItems_keys, clearClass, true_and, typeGet_sees hw ho ha hc]
    · simp [clearClass, hc']
  | pop k default =>
    simp only [typeOp, typePop, specOp, hs]
    cases typeGet w s d c k with
    | none => exact ⟨rfl, ha⟩
    | some v => exact ⟨rfl, hput k _⟩
  | setdefault k v => exact absurd rfl (hop k v)
  | update pairs =>
    refine ⟨rfl, ?_⟩
    simp only [typeOp, specOp]
    have := markMany_cls m c pairs
    simp only at this
    obtain ⟨i1, i2, i3, i4⟩ := this
    refine agrees_putBase ho ha hc _ (fun k => ?_) i3 i1 i2
    rw [update_some_get, ha.own c d hc, i4]

theorem overlayOp_agrees {w : PropWorld C D I K V} {s : PropState C D I K V} {m : Marks C I K V} (hw : SelfFirst w) (ho : OwnDeclarations w)
    (ha : Agrees w s m) {i : I} {d : D} (hc : descriptorOf w (w.classOf i) = some d) {f : PropFrame K V} (hf : s.locals i = .overlay f)
    (op : PropOp K V) (hop : ∀ k v, op ≠ .setdefault k v) (hop' : ∀ k v, op ≠ .pop k v) :
    (overlayOp w s d i f op).2 = (specOp w m (.inst i) op).2 ∧ Agrees w (overlayOp w s d i f op).1 (specOp w m (.inst i) op).1 := by
  obtain ⟨hcl, hnd, hg⟩ := ha.overlay i f hf
  have hs : ∀ k, sees w m (.inst i) k = overlayGet w s d (w.classOf i) f k := fun k => by
    rw [overlayGet_sees hw ho ha hc hf, sees, if_pos ((descriptor_iff _).1 (by rw [hc]; rfl))]
  have hput : ∀ k x, Agrees w (putLocal s i (.overlay (dictPut f k x))) (mark m (.inst i) k (some x)) := fun k x => by
    refine agrees_overlay ha i _ hcl (nodup_dictKeys_put hnd _ _) (fun k' => ?_) (fun j hj => ⟨?_, rfl⟩) rfl
    · rw [dictGet_put, hg]; simp [mark, markInst]
    · funext k'; simp [mark, markInst, hj]
  cases op with
  | get k => simp only [overlayOp, specOp, hs]; exact ⟨rfl, ha⟩
  | set k v => exact ⟨rfl, hput k _⟩
  | del k =>
    simp only [overlayOp, specOp, hs]
    cases overlayGet w s d (w.classOf i) f k with
    | none => exact ⟨rfl, ha⟩
    | some v => exact ⟨rfl, hput k _⟩
  | clear =>
    refine ⟨rfl, ?_⟩
    simp only [overlayOp, specOp, clearAll]
    refine agrees_overlay ha i _ hcl (clear_nodup _ _ _ (by simp [dictKeys])) (fun k => ?_) (fun j hj => ⟨?_, rfl⟩) rfl
    · rw [clear_get]
      simp only [typeItems_keys, clearInst, if_true, typeGet_sees hw ho ha hc, hcl, dictGet, Bool.not_false, true_and]
    · funext k'; simp [clearInst, hj]
  | pop k default => exact absurd rfl (hop' k default)
  | setdefault k v => exact absurd rfl (hop k v)
  | update pairs =>
    refine ⟨rfl, ?_⟩
    simp only [overlayOp, specOp]
    have := markMany_inst m i pairs
    simp only at this
    obtain ⟨i1, i2, i3, i4⟩ := this
    refine agrees_overlay ha i _ (by rw [i2]; exact hcl) (update_nodup _ _ hnd) (fun k => ?_) (fun j hj => ⟨i3 j hj, by rw [i2]⟩) i1
    rw [update_some_get, hg, i4]

theorem plainOp_agrees {w : PropWorld C D I K V} {s : PropState C D I K V} {m : Marks C I K V}
    (ha : Agrees w s m) {i : I} (hde : (declarer w (w.classOf i)).isSome) {e : PyDict K V} (hf : s.locals i = .replaced e)
    (op : PropOp K V) :
    (plainOp s i e op).2 = (specOp w m (.inst i) op).2 ∧ Agrees w (plainOp s i e op).1 (specOp w m (.inst i) op).1 := by
  obtain ⟨hcl, hnd, hg⟩ := ha.replaced i e hf
  have hs : ∀ k, sees w m (.inst i) k = dictGet e k := fun k => by
    rw [sees, if_pos hde, hg k]
    unfold instSees
    cases m.inst i k <;> simp [hcl]
  have hput : ∀ k x, Agrees w (putLocal s i (.replaced (dictPut e k x))) (mark m (.inst i) k (some (some x))) := fun k x => by
    refine agrees_replaced ha i _ hcl (nodup_dictKeys_put hnd _ _) (fun k' => ?_) (fun j hj => ⟨?_, rfl⟩) rfl
    · rw [dictGet_put, hg]; by_cases h : k' = k <;> simp [mark, markInst, h]
    · funext k'; simp [mark, markInst, hj]
  have hdel : ∀ k, Agrees w (putLocal s i (.replaced (dictDel e k))) (mark m (.inst i) k (some none)) := fun k => by
    refine agrees_replaced ha i _ hcl (nodup_dictKeys_del hnd _) (fun k' => ?_) (fun j hj => ⟨?_, rfl⟩) rfl
    · rw [dictGet_del _ _ _ hnd, hg]; by_cases h : k' = k <;> simp [mark, markInst, h]
    · funext k'; simp [mark, markInst, hj]
  cases op with
  | get k => simp only [plainOp, specOp, hs]; exact ⟨rfl, ha⟩
  | set k v => exact ⟨rfl, hput k _⟩
  | del k =>
    simp only [plainOp, specOp, hs]
    cases dictGet e k with
    | none => exact ⟨rfl, ha⟩
    | some v => exact ⟨rfl, hdel k⟩
  | clear =>
    refine ⟨rfl, ?_⟩
    simp only [plainOp, specOp, clearAll]
    refine agrees_replaced ha i _ hcl (by simp [dictKeys]) (fun k => ?_) (fun j hj => ⟨?_, rfl⟩) rfl
    · simp [clearInst, hcl, dictGet]
    · funext k'; simp [clearInst, hj]
  | pop k default =>
    simp only [plainOp, specOp, hs]
    cases dictGet e k with
    | none => exact ⟨rfl, ha⟩
    | some v => exact ⟨rfl, hdel k⟩
  | setdefault k v =>
    simp only [plainOp, specOp, hs]
    cases dictGet e k with
    | none => exact ⟨rfl, hput k _⟩
    | some v => exact ⟨rfl, ha⟩
  | update pairs =>
    refine ⟨rfl, ?_⟩
    simp only [plainOp, specOp]
    have := markMany_inst m i pairs
    simp only at this
    obtain ⟨i1, i2, i3, i4⟩ := this
    refine agrees_replaced ha i _ (by rw [i2]; exact hcl) (update_nodup _ _ hnd) (fun k => ?_) (fun j hj => ⟨i3 j hj, by rw [i2]⟩) i1
    rw [update_get _ _ (dictOf_nodup _), hg, i4]
    cases dictGet (dictOf pairs) k <;> rfl

theorem propStep_agrees {w : PropWorld C D I K V} {s : PropState C D I K V} {m : Marks C I K V} (hw : SelfFirst w) (ho : OwnDeclarations w)
    (ha : Agrees w s m) (p : PropStep C I K V) (hp : Regular p) :
    (propStep w s p).2 = (specStep w m p).2 ∧ Agrees w (propStep w s p).1 (specStep w m p).1 := by
  cases p with
  | cls c op =>
    have hi := descriptor_iff (w := w) c
    simp only [propStep, specStep]
    cases hd : descriptorOf w c with
    | none =>
      rw [hd] at hi
      simp only [show ¬ (declarer w _).isSome = true from fun h => by simpa using hi.2 h, if_false, Bool.false_eq_true]
      exact ⟨trivial, ha⟩
    | some d =>
      rw [hd] at hi
      rw [if_pos (hi.1 rfl)]
      exact typeOp_agrees hw ho ha hd op (by intro k v h; subst h; exact hp)
  | inst i op =>
    have hi := descriptor_iff (w := w) (w.classOf i)
    simp only [propStep, specStep]
    cases hd : descriptorOf w (w.classOf i) with
    | none =>
      rw [hd] at hi
      simp only [show ¬ (declarer w _).isSome = true from fun h => by simpa using hi.2 h, if_false, Bool.false_eq_true]
      exact ⟨trivial, ha⟩
    | some d =>
      rw [hd] at hi
      rw [if_pos (hi.1 rfl)]
      simp only [instanceOp]
      cases hl : s.locals i with
      | replaced e => exact plainOp_agrees ha (hi.1 rfl) hl op
      | overlay f => exact overlayOp_agrees hw ho ha hd hl op (by intro k v h; subst h; exact hp) (by intro k v h; subst h; exact hp)
  | assign i pairs =>
    refine ⟨rfl, ?_⟩
    simp only [propStep, specStep]
    refine agrees_replaced ha i _ (by simp) (dictOf_nodup _) (fun k => ?_) (fun j hj => by simp [hj]) rfl
    simp only [if_true]
    cases dictGet (dictOf pairs) k <;> rfl

omit [DecidableEq C] [DecidableEq I] in
theorem start_agrees (w : PropWorld C D I K V) (hw : SelfFirst w) : Agrees w (propStart w) (startMarks w) := by
  constructor
  · intro c d hd k
    simp only [baseFrame, propStart, startMarks]
    have key : ∀ d, dictGet (dictOf ((w.initial d).map fun p => (p.1, some p.2))) k = (dictGet (dictOf (w.initial d)) k).map some := by
      intro d
      generalize w.initial d = ps
      rcases List.eq_nil_or_concat ps with h | ⟨qs, q, h⟩
      · subst h; simp [dictOf, dictGet]
      · suffices H : ∀ ps : List (K × V), dictOf (ps.map fun p => (p.1, some p.2)) = (dictOf ps).map fun p => (p.1, some p.2) by
          rw [H, dictGet_map]
        intro ps
        have hput : ∀ (e : PyDict K V) k v, dictPut (e.map fun p => (p.1, some p.2)) k (some v) = (dictPut e k v).map fun p => (p.1, some p.2) := by
          intro e k v
          induction e with
          | nil => rfl
          | cons p e ih => simp only [List.map_cons, dictPut]; split <;> simp_all
        unfold dictOf
        have : ∀ e : PyDict K V, (ps.map fun p => (p.1, some p.2)).foldl (fun d p => dictPut d p.1 p.2) (e.map fun p => (p.1, some p.2)) =
            (ps.foldl (fun d p => dictPut d p.1 p.2) e).map fun p => (p.1, some p.2) := by
          induction ps with
          | nil => intro e; rfl
          | cons p ps ih => intro e; simp only [List.map_cons, List.foldl_cons]; rw [hput]; exact ih _
        exact this []
    cases hm : w.member c with
    | none => simp [dictGet]
    | some d' =>
      have := descriptor_self hw hm
      rw [hd] at this
      cases this
      simp only [if_true]
      exact key d
  · intro c d _; rfl
  · intro i f hf
    simp only [propStart, LocalProps.overlay.injEq] at hf
    subst hf
    exact ⟨rfl, by simp [dictKeys], fun k => rfl⟩
  · intro i e he; simp [propStart] at he

theorem run_agrees {w : PropWorld C D I K V} (hw : SelfFirst w) (ho : OwnDeclarations w) (ps : List (PropStep C I K V)) (hp : ∀ p ∈ ps, Regular p)
    {s : PropState C D I K V} {m : Marks C I K V} (ha : Agrees w s m) :
    (propRun w s ps).2 = (specRun w m ps).2 ∧ Agrees w (propRun w s ps).1 (specRun w m ps).1 := by
  induction ps generalizing s m with
  | nil => exact ⟨rfl, ha⟩
  | cons p ps ih =>
    have h1 := propStep_agrees hw ho ha p (hp p (by simp))
    have h2 := ih (fun q hq => hp q (by simp [hq])) h1.2
    simp only [propRun, specRun]
    exact ⟨by rw [h1.1, h2.1], h2.2⟩

/-! ### the instances' storage has no key twice -/

/-- see above -/
def LocalsOk (s : PropState C D I K V) : Prop := ∀ i, match s.locals i with
  | .overlay f => (dictKeys f).Nodup
  | .replaced e => (dictKeys e).Nodup

omit [DecidableEq C] [DecidableEq D] [DecidableEq K] in
theorem putLocal_ok {s : PropState C D I K V} (h : LocalsOk s) (i : I) (l : LocalProps K V)
    (hl : match l with | .overlay f => (dictKeys f).Nodup | .replaced e => (dictKeys e).Nodup) : LocalsOk (putLocal s i l) := by
  intro j
  simp only [putLocal]
  by_cases hj : j = i
  · rw [if_pos hj]; exact hl
  · rw [if_neg hj]; exact h j

omit [DecidableEq I] [DecidableEq K] in
theorem putBase_locals (w : PropWorld C D I K V) (s : PropState C D I K V) (d : D) (c : C) (f : PropFrame K V) : (putBase w s d c f).locals = s.locals := by
  unfold putBase; split <;> rfl

omit [DecidableEq I] [DecidableEq K] in
theorem putBase_ok {w : PropWorld C D I K V} {s : PropState C D I K V} (h : LocalsOk s) (d : D) (c : C) (f : PropFrame K V) : LocalsOk (putBase w s d c f) := by
  intro i; rw [putBase_locals]; exact h i

omit [DecidableEq I] in
theorem typePop_ok {w : PropWorld C D I K V} {s : PropState C D I K V} (h : LocalsOk s) (d : D) (c : C) (k : K) (x : Option V) : LocalsOk (typePop w s d c k x).1 := by
  unfold typePop
  split
  · exact h
  · exact putBase_ok h _ _ _

theorem propStep_ok (w : PropWorld C D I K V) {s : PropState C D I K V} (h : LocalsOk s) (p : PropStep C I K V) : LocalsOk (propStep w s p).1 := by
  cases p with
  | cls c op =>
    simp only [propStep]
    split
    · exact h
    · cases op <;> simp only [typeOp] <;> first | exact h | exact putBase_ok h _ _ _ | exact typePop_ok h _ _ _ _ | (split <;> first | exact h | exact putBase_ok h _ _ _)
  | inst i op =>
    simp only [propStep]
    split
    · exact h
    · have hi := h i
      simp only [instanceOp]
      cases hl : s.locals i with
      | overlay f =>
        simp only [hl] at hi
        cases op with
        | get k => exact h
        | set k v => exact putLocal_ok h _ _ (nodup_dictKeys_put hi _ _)
        | del k => simp only [overlayOp]; split <;> first | exact h | exact putLocal_ok h _ _ (nodup_dictKeys_put hi _ _)
        | clear => exact putLocal_ok h _ _ (clear_nodup _ _ _ (by simp [dictKeys]))
        | pop k x => simp only [overlayOp]; split <;> first | exact putLocal_ok h _ _ (nodup_dictKeys_del hi _) | exact typePop_ok h _ _ _ _
        | setdefault k v =>
          simp only [overlayOp]; split
          · exact h
          · split
            · exact h
            · exact putLocal_ok h _ _ (nodup_dictKeys_put hi _ _)
        | update pairs => exact putLocal_ok h _ _ (update_nodup _ _ hi)
      | replaced e =>
        simp only [hl] at hi
        cases op with
        | get k => exact h
        | set k v => exact putLocal_ok h _ _ (nodup_dictKeys_put hi _ _)
        | del k => simp only [plainOp]; split <;> first | exact h | exact putLocal_ok h _ _ (nodup_dictKeys_del hi _)
        | clear => exact putLocal_ok h _ _ (by simp [dictKeys])
        | pop k x => simp only [plainOp]; split <;> first | exact putLocal_ok h _ _ (nodup_dictKeys_del hi _) | exact h
        | setdefault k v => simp only [plainOp]; split <;> first | exact h | exact putLocal_ok h _ _ (nodup_dictKeys_put hi _ _)
        | update pairs => exact putLocal_ok h _ _ (update_nodup _ _ hi)
  | assign i pairs => exact putLocal_ok h _ _ (dictOf_nodup _)

theorem run_ok (w : PropWorld C D I K V) {s : PropState C D I K V} (h : LocalsOk s) (ps : List (PropStep C I K V)) : LocalsOk (propRun w s ps).1 := by
  induction ps generalizing s with
  | nil => exact h
  | cons p ps ih => exact ih (propStep_ok w h p)

omit [DecidableEq C] [DecidableEq D] [DecidableEq I] in
theorem start_ok (w : PropWorld C D I K V) : LocalsOk (propStart w) := fun _ => by simp [propStart, dictKeys]

omit [DecidableEq C] [DecidableEq I] in
theorem overlayItems_spec (w : PropWorld C D I K V) (s : PropState C D I K V) (d : D) (c : C) (f : PropFrame K V) (hf : (dictKeys f).Nodup) :
    ((overlayItems w s d c f).map Prod.fst).Nodup ∧ ∀ k v, (k, v) ∈ overlayItems w s d c f ↔ overlayGet w s d c f k = some v := by
  have hmem : ∀ k v, (k, v) ∈ overlayItems w s d c f ↔ overlayGet w s d c f k = some v := by
    intro k v
    unfold overlayItems overlayGet
    rw [List.mem_append, List.mem_filterMap, List.mem_filter]
    have h1 : (∃ a ∈ f, a.2.map (fun v => (a.1, v)) = some (k, v)) ↔ dictGet f k = some (some v) := by
      rw [← dictGet_mem hf]
      constructor
      · rintro ⟨⟨k', x⟩, hm, hx⟩
        cases x with
        | none => simp at hx
        | some x => simp only [Option.map_some, Option.some.injEq, Prod.mk.injEq] at hx; rw [← hx.1, ← hx.2]; exact hm
      · intro h; exact ⟨_, h, rfl⟩
    rw [h1]
    have h2 := frameItems_mem [] (typeFrames w s d (w.mro c)) k v
    unfold typeItems typeGet
    rw [h2]
    cases hg : dictGet f k with
    | none =>
      have : k ∉ dictKeys f := dictGet_none.1 hg
      simp [this]
    | some x =>
      have : k ∈ dictKeys f := dictGet_isSome.1 (by simp [hg])
      simp [this]
  refine ⟨?_, hmem⟩
  unfold overlayItems
  rw [List.map_append, List.nodup_append]
  refine ⟨?_, ?_, ?_⟩
  · clear hmem
    induction f with
    | nil => simp
    | cons p f ih =>
      obtain ⟨k0, x0⟩ := p
      simp only [dictKeys, List.map_cons, List.nodup_cons] at hf
      cases x0 with
      | none => simpa using ih hf.2
      | some x =>
        simp only [List.filterMap_cons, Option.map_some, List.map_cons, List.nodup_cons]
        refine ⟨?_, ih hf.2⟩
        intro h
        obtain ⟨⟨k', v'⟩, hm, hk⟩ := List.mem_map.1 h
        simp only at hk
        subst hk
        obtain ⟨⟨k2, x2⟩, hm2, hx2⟩ := List.mem_filterMap.1 hm
        cases x2 with
        | none => simp at hx2
        | some y =>
          simp only [Option.map_some, Option.some.injEq, Prod.mk.injEq] at hx2
          exact hf.1 (List.mem_map.2 ⟨_, hm2, hx2.1⟩)
  · exact List.Sublist.nodup (List.Sublist.map _ List.filter_sublist) (frameItems_nodup [] _)
  · intro a ha b hb hab
    subst hab
    obtain ⟨⟨k', v'⟩, hm, rfl⟩ := List.mem_map.1 ha
    obtain ⟨⟨k2, x2⟩, hm2, hx2⟩ := List.mem_filterMap.1 hm
    obtain ⟨⟨k3, v3⟩, hm3, hk3⟩ := List.mem_map.1 hb
    simp only at hk3
    subst hk3
    rw [List.mem_filter] at hm3
    have : k3 ∈ dictKeys f := by
      cases x2 with
      | none => simp at hx2
      | some y =>
        simp only [Option.map_some, Option.some.injEq, Prod.mk.injEq] at hx2
        exact List.mem_map.2 ⟨_, hm2, hx2.1⟩
    simpa [this] using hm3.2

/-! ### isolation -/

omit [DecidableEq I] [DecidableEq K] in
theorem typeFrames_put {w : PropWorld C D I K V} (ho : OwnDeclarations w) (s : PropState C D I K V) (d d' : D) (c : C) (f : PropFrame K V) (l : List C)
    (hl : c ∉ l) : typeFrames w (putBase w s d c f) d' l = typeFrames w s d' l := by
  induction l with
  | nil => rfl
  | cons a l ih =>
    rw [List.mem_cons, not_or] at hl
    have hb := baseFrame_put ho s d d' c a f (.inl fun h => hl.1 h.symm)
    rw [if_neg fun h => hl.1 h.symm] at hb
    unfold baseFrame at hb
    have hmap : w.member a ≠ some d' → (putBase w s d c f).map d' a = s.map d' a := by
      intro _
      unfold putBase
      split
      · rfl
      · simp only
        rw [if_neg]
        rintro ⟨_, h⟩
        exact hl.1 h.symm
    rw [typeFrames, typeFrames]
    by_cases hm : w.member a = some d'
    · rw [if_pos hm, if_pos hm] at hb
      rw [if_pos hm, if_pos hm, hb]
    · rw [if_neg hm, if_neg hm, hmap hm, ih hl.2]

omit [DecidableEq I] in
theorem typeOp_frames {w : PropWorld C D I K V} (ho : OwnDeclarations w) (s : PropState C D I K V) (d : D) (c : C) (op : PropOp K V) :
    (typeOp w s d c op).1.locals = s.locals ∧ ∀ d' l, c ∉ l → typeFrames w (typeOp w s d c op).1 d' l = typeFrames w s d' l := by
  have hp : ∀ f, (putBase w s d c f).locals = s.locals ∧ ∀ d' l, c ∉ l → typeFrames w (putBase w s d c f) d' l = typeFrames w s d' l :=
    fun f => ⟨putBase_locals _ _ _ _ _, fun d' l h => typeFrames_put ho s d d' c f l h⟩
  cases op <;> simp only [typeOp, typePop] <;> first | exact hp _ | exact ⟨trivial, fun _ _ _ => trivial⟩ | (split <;> first | exact ⟨rfl, fun _ _ _ => rfl⟩ | exact hp _)

omit [DecidableEq C] [DecidableEq K] in
theorem putLocal_frames (w : PropWorld C D I K V) (s : PropState C D I K V) (i : I) (l : LocalProps K V) (d : D) (cs : List C) :
    typeFrames w (putLocal s i l) d cs = typeFrames w s d cs := by
  induction cs with
  | nil => rfl
  | cons c cs ih => rw [typeFrames, typeFrames, ih]; rfl

end Flatland
