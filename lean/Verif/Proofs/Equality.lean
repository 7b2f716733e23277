import Verif.Spec.Equality
/-! `==` of values is an equivalence relation. -/
namespace Flatland
open Flatland.Spec

theorem wfList_mem {xs : List PyVal} (h : WfList xs) : ∀ x ∈ xs, WfVal x := by
  induction xs with
  | nil => simp
  | cons x xs ih =>
    rw [WfList] at h
    intro y hy
    rcases List.mem_cons.1 hy with rfl | hy
    · exact h.1
    · exact ih h.2 y hy

theorem wfDict_mem {kvs : List (PStr × PyVal)} (h : WfDict kvs) : ∀ k v, (k, v) ∈ kvs → WfVal v := by
  induction kvs with
  | nil => simp
  | cons p kvs ih =>
    obtain ⟨k0, v0⟩ := p
    rw [WfDict] at h
    intro k v hv
    rcases List.mem_cons.1 hv with hv | hv
    · cases hv; exact h.1
    · exact ih h.2 k v hv

theorem lookup_iff {kvs : List (PStr × PyVal)} (h : (kvs.map Prod.fst).Nodup) (k : PStr) (v : PyVal) :
    kvs.lookup k = some v ↔ (k, v) ∈ kvs := by
  induction kvs with
  | nil => simp
  | cons p kvs ih =>
    obtain ⟨k0, v0⟩ := p
    rw [List.map_cons, List.nodup_cons] at h
    rw [List.lookup_cons]
    by_cases hk : k = k0
    · subst hk
      simp only [beq_self_eq_true, Option.some.injEq, List.mem_cons, Prod.mk.injEq, true_and]
      constructor
      · intro he; exact .inl he.symm
      · rintro (rfl | hm)
        · rfl
        · exact absurd (List.mem_map.2 ⟨_, hm, rfl⟩) h.1
    · have : (k == k0) = false := by simpa using hk
      simp only [this, List.mem_cons, Prod.mk.injEq, hk, false_and, false_or]
      exact ih h.2

theorem pyEqDict_iff (xs ys : List (PStr × PyVal)) :
    pyEqDict xs ys = true ↔ ∀ k v, (k, v) ∈ xs → ∃ w, ys.lookup k = some w ∧ pyEq v w = true := by
  induction xs with
  | nil => simp [pyEqDict]
  | cons p xs ih =>
    obtain ⟨k, v⟩ := p
    rw [pyEqDict, Bool.and_eq_true, ih]
    constructor
    · rintro ⟨h1, h2⟩ k' v' hm
      rcases List.mem_cons.1 hm with hm | hm
      · cases hm
        cases hl : ys.lookup k with
        | none => rw [hl] at h1; cases h1
        | some w => rw [hl] at h1; exact ⟨w, rfl, h1⟩
      · exact h2 k' v' hm
    · intro h
      obtain ⟨w, hw, he⟩ := h k v (by simp)
      exact ⟨by rw [hw]; exact he, fun k' v' hm => h k' v' (by simp [hm])⟩

/-- a list without repetitions contained in one that is not longer contains it -/
theorem subset_of_nodup {α} [DecidableEq α] (xs ys : List α) (hx : xs.Nodup) (hs : ∀ a ∈ xs, a ∈ ys) (hl : ys.length ≤ xs.length) :
    ∀ a ∈ ys, a ∈ xs := by
  induction xs generalizing ys with
  | nil =>
    intro a ha
    cases ys with
    | nil => exact ha
    | cons b ys => simp at hl
  | cons x xs ih =>
    rw [List.nodup_cons] at hx
    have hxy := hs x (by simp)
    intro a ha
    by_cases hax : a = x
    · simp [hax]
    · have hlen : (ys.erase x).length = ys.length - 1 := List.length_erase_of_mem hxy
      have hpos : 0 < ys.length := List.length_pos_of_mem hxy
      have := ih (ys.erase x) hx.2 (by
        intro b hb
        have hbx : b ≠ x := fun he => hx.1 (he ▸ hb)
        exact (List.mem_erase_of_ne hbx).2 (hs b (by simp [hb]))) (by simp at hl; omega) a ((List.mem_erase_of_ne hax).2 ha)
      simp [this]

theorem sizeOf_mem_dict {k : PStr} {v : PyVal} {kvs : List (PStr × PyVal)} (h : (k, v) ∈ kvs) : sizeOf v < sizeOf kvs := by
  have := List.sizeOf_lt_of_mem h
  simp at this
  omega

theorem pyEq_refl : ∀ (n : Nat) (a : PyVal), sizeOf a < n → WfVal a → pyEq a a = true := by
  intro n
  induction n with
  | zero => intro a h; omega
  | succ n ih =>
    intro a h hw
    cases a with
    | list xs =>
      rw [pyEq]
      rw [WfVal] at hw
      have hm := wfList_mem hw
      simp at h
      have hs : ∀ x ∈ xs, sizeOf x < n := fun x hx => by
        have := List.sizeOf_lt_of_mem hx
        omega
      clear h hw
      induction xs with
      | nil => rfl
      | cons x xs ih2 =>
        rw [pyEqList, Bool.and_eq_true]
        exact ⟨ih x (hs x (by simp)) (hm x (by simp)), ih2 (fun y hy => hm y (by simp [hy])) fun y hy => hs y (by simp [hy])⟩
    | dict kvs =>
      rw [pyEq, Bool.and_eq_true]
      rw [WfVal] at hw
      refine ⟨by simp, ?_⟩
      rw [pyEqDict_iff]
      intro k v hkv
      simp at h
      have := sizeOf_mem_dict hkv
      exact ⟨v, (lookup_iff hw.1 k v).2 hkv, ih v (by omega) (wfDict_mem hw.2 k v hkv)⟩
    | _ => simp [pyEq]

theorem pyEqList_iff (xs ys : List PyVal) : pyEqList xs ys = true ↔ xs.length = ys.length ∧ ∀ i (h1 : i < xs.length) (h2 : i < ys.length), pyEq xs[i] ys[i] = true := by
  induction xs generalizing ys with
  | nil => cases ys <;> simp [pyEqList]
  | cons x xs ih =>
    cases ys with
    | nil => simp [pyEqList]
    | cons y ys =>
      rw [pyEqList, Bool.and_eq_true, ih]
      constructor
      · rintro ⟨h1, h2, h3⟩
        refine ⟨by simp [h2], ?_⟩
        intro i hi1 hi2
        cases i with
        | zero => exact h1
        | succ i => exact h3 i (by simpa using hi1) (by simpa using hi2)
      · rintro ⟨h1, h2⟩
        refine ⟨h2 0 (by simp) (by simp), by simpa using h1, fun i hi1 hi2 => ?_⟩
        exact h2 (i + 1) (by simpa using hi1) (by simpa using hi2)

theorem pyEq_symm : ∀ (n : Nat) (a b : PyVal), sizeOf a < n → WfVal a → WfVal b → pyEq a b = true → pyEq b a = true := by
  intro n
  induction n with
  | zero => intro a b h; omega
  | succ n ih =>
    intro a b h hwa hwb he
    cases a with
    | list xs =>
      cases b with
      | list ys =>
        rw [pyEq, pyEqList_iff] at he ⊢
        rw [WfVal] at hwa hwb
        refine ⟨he.1.symm, fun i h1 h2 => ?_⟩
        simp at h
        have hm := List.sizeOf_lt_of_mem (List.getElem_mem h2)
        exact ih _ _ (by omega) (wfList_mem hwa _ (List.getElem_mem h2)) (wfList_mem hwb _ (List.getElem_mem h1)) (he.2 i h2 h1)
      | _ => simp [pyEq] at he
    | dict xs =>
      cases b with
      | dict ys =>
        rw [pyEq, Bool.and_eq_true, pyEqDict_iff] at he ⊢
        rw [WfVal] at hwa hwb
        have hlen : xs.length = ys.length := by simpa using he.1
        refine ⟨by simp [hlen], fun k w hk => ?_⟩
        have hsub := subset_of_nodup (xs.map Prod.fst) (ys.map Prod.fst) hwa.1 (by
          intro k hk
          obtain ⟨⟨k', v⟩, hm, rfl⟩ := List.mem_map.1 hk
          obtain ⟨w, hw, _⟩ := he.2 k' v hm
          exact List.mem_map.2 ⟨_, (lookup_iff hwb.1 k' w).1 hw, rfl⟩) (by simp [hlen]) k (List.mem_map.2 ⟨_, hk, rfl⟩)
        obtain ⟨⟨k', v⟩, hm, rfl⟩ := List.mem_map.1 hsub
        obtain ⟨w', hw', hee⟩ := he.2 k' v hm
        have hww : w' = w := by
          have := (lookup_iff hwb.1 k' w).2 hk
          rw [hw'] at this
          exact Option.some.inj this
        subst hww
        simp at h
        have := sizeOf_mem_dict hm
        exact ⟨v, (lookup_iff hwa.1 k' v).2 hm, ih v w' (by omega) (wfDict_mem hwa.2 k' v hm) (wfDict_mem hwb.2 k' w' hk) hee⟩
      | _ => simp [pyEq] at he
    | bool x => cases b <;> simp [pyEq] at he ⊢ <;> simp [he]
    | int x => cases b <;> simp [pyEq] at he ⊢ <;> simp [he]
    | none => cases b <;> simp [pyEq] at he ⊢
    | str s => cases b <;> simp [pyEq] at he ⊢ <;> simp [he]
    | date y m d => cases b <;> simp [pyEq] at he ⊢ <;> simp [he]
    | time y m d u => cases b <;> simp [pyEq] at he ⊢ <;> simp [he]
    | datetime y m d _ _ _ _ => cases b <;> simp [pyEq] at he ⊢ <;> simp [he]
    | obj y => cases b <;> simp [pyEq] at he ⊢ <;> simp [he]

theorem pyEq_trans : ∀ (n : Nat) (a b c : PyVal), sizeOf a < n → WfVal a → WfVal b → WfVal c → pyEq a b = true → pyEq b c = true →
    pyEq a c = true := by
  intro n
  induction n with
  | zero => intro a b c h; omega
  | succ n ih =>
    intro a b c h hwa hwb hwc h1 h2
    cases a with
    | list xs =>
      cases b with
      | list ys =>
        cases c with
        | list zs =>
          rw [pyEq, pyEqList_iff] at h1 h2 ⊢
          rw [WfVal] at hwa hwb hwc
          refine ⟨h1.1.trans h2.1, fun i i1 i2 => ?_⟩
          have i3 : i < ys.length := by omega
          simp at h
          have hm := List.sizeOf_lt_of_mem (List.getElem_mem i1)
          exact ih _ _ _ (by omega) (wfList_mem hwa _ (List.getElem_mem i1)) (wfList_mem hwb _ (List.getElem_mem i3))
            (wfList_mem hwc _ (List.getElem_mem i2)) (h1.2 i i1 i3) (h2.2 i i3 i2)
        | _ => simp [pyEq] at h2
      | _ => simp [pyEq] at h1
    | dict xs =>
      cases b with
      | dict ys =>
        cases c with
        | dict zs =>
          rw [pyEq, Bool.and_eq_true, pyEqDict_iff] at h1 h2 ⊢
          rw [WfVal] at hwa hwb hwc
          refine ⟨by have e1 := h1.1; have e2 := h2.1; simp at e1 e2; simp [e1, e2], fun k v hk => ?_⟩
          obtain ⟨w, hw, he⟩ := h1.2 k v hk
          have hkw := (lookup_iff hwb.1 k w).1 hw
          obtain ⟨x, hx, he2⟩ := h2.2 k w hkw
          simp at h
          have := sizeOf_mem_dict hk
          exact ⟨x, hx, ih v w x (by omega) (wfDict_mem hwa.2 k v hk) (wfDict_mem hwb.2 k w hkw)
            (wfDict_mem hwc.2 k x ((lookup_iff hwc.1 k x).1 hx)) he he2⟩
        | _ => simp [pyEq] at h2
      | _ => simp [pyEq] at h1
    | bool x =>
      cases b <;> simp [pyEq] at h1 <;> cases c <;> simp [pyEq] at h2 ⊢ <;> (try simp_all)
      all_goals (split at h1 <;> split at h1 <;> simp_all <;> omega)
    | int x => cases b <;> simp [pyEq] at h1 <;> cases c <;> simp [pyEq] at h2 ⊢ <;> simp_all
    | none => cases b <;> simp [pyEq] at h1 <;> cases c <;> simp [pyEq] at h2 ⊢
    | str s => cases b <;> simp [pyEq] at h1 <;> cases c <;> simp [pyEq] at h2 ⊢ <;> simp_all
    | date y m d => cases b <;> simp [pyEq] at h1 <;> cases c <;> simp [pyEq] at h2 ⊢ <;> simp_all
    | time y m d u => cases b <;> simp [pyEq] at h1 <;> cases c <;> simp [pyEq] at h2 ⊢ <;> simp_all
    | datetime y m d _ _ _ _ => cases b <;> simp [pyEq] at h1 <;> cases c <;> simp [pyEq] at h2 ⊢ <;> simp_all
    | obj y => cases b <;> simp [pyEq] at h1 <;> cases c <;> simp [pyEq] at h2 ⊢ <;> simp_all

end Flatland
