import Verif.Spec.PyLists
/-
Lemmas on Python's list operations, for C25.
-/
namespace Flatland
open Flatland.Spec

theorem pyIndex_iff (len : Nat) (i : Int) (j : Nat) : pyIndex len i = some j ↔ j < len ∧ (i = j ∨ i = (j : Int) - len) := by
  unfold pyIndex
  split
  · split <;> simp <;> omega
  · split <;> simp <;> omega

theorem pyIndex_none_iff (len : Nat) (i : Int) : pyIndex len i = none ↔ i < -(len : Int) ∨ (len : Int) ≤ i := by
  unfold pyIndex
  split
  · split <;> simp <;> omega
  · split <;> simp <;> omega

theorem insertPos_spec (len : Nat) (i : Int) : insertPos len i ≤ len ∧
    ((fromEnd len i < 0 → insertPos len i = 0) ∧ (len < fromEnd len i → insertPos len i = len) ∧
      (0 ≤ fromEnd len i → fromEnd len i ≤ len → (insertPos len i : Int) = fromEnd len i)) := by
  unfold insertPos fromEnd
  split <;> omega

theorem sliceStart_forward {len : Nat} {step : Int} (hs : 0 < step) (a : Option Int) :
    0 ≤ sliceStart len step a ∧ ((sliceStart len step a = sliceBegin len step a) ∨ (sliceStart len step a = len ∧ len < sliceBegin len step a)) := by
  cases a <;> simp only [sliceStart, sliceBegin, if_pos hs, fromEnd, if_neg (show ¬ step < 0 by omega)]
  · simp
  · split <;> (try split) <;> omega

theorem sliceStart_backward {len : Nat} {step : Int} (hs : step < 0) (a : Option Int) :
    sliceStart len step a < len ∧ ((sliceStart len step a = sliceBegin len step a) ∨ (sliceStart len step a = -1 ∧ sliceBegin len step a < -1)) := by
  cases a <;> simp only [sliceStart, sliceBegin, if_neg (show ¬ 0 < step by omega), fromEnd, if_pos hs]
  · simp <;> omega
  · split <;> (try split) <;> omega

theorem sliceStop_forward {len : Nat} {step : Int} (hs : 0 < step) (b : Option Int) (p : Nat) :
    (p : Int) < sliceStop len step b ↔ p < len ∧ ∀ j, b = some j → (p : Int) < fromEnd len j := by
  cases b <;> simp only [sliceStop, fromEnd, if_neg (show ¬ step < 0 by omega)]
  · simp
  · simp only [Option.some.injEq, forall_eq']
    split <;> (try split) <;> omega

theorem sliceStop_backward {len : Nat} {step : Int} (hs : step < 0) (b : Option Int) {p : Nat} (hp : p < len) :
    sliceStop len step b < (p : Int) ↔ ∀ j, b = some j → fromEnd len j < (p : Int) := by
  cases b <;> simp only [sliceStop, fromEnd, if_pos hs]
  · simp
    omega
  · simp only [Option.some.injEq, forall_eq']
    split <;> (try split) <;> omega

theorem sliceStop_ge {len : Nat} {step : Int} (b : Option Int) : -1 ≤ sliceStop len step b ∧ (0 < step → sliceStop len step b ≤ len) := by
  cases b <;> simp only [sliceStop]
  · split <;> omega
  · repeat' split
    all_goals omega

theorem lt_sliceCount_forward {start stop step : Int} (hs : 0 < step) (k : Nat) : k < sliceCount start stop step ↔ start + step * k < stop := by
  unfold sliceCount
  rw [if_neg (by omega)]
  have hk : 0 ≤ step * (k : Int) := Int.mul_nonneg (by omega) (by omega)
  split
  · have h0 : 0 ≤ (stop - start - 1) / step := Int.ediv_nonneg (by omega) (by omega)
    have := Int.le_ediv_iff_mul_le (a := (k : Int)) (b := stop - start - 1) hs
    rw [Int.mul_comm] at this
    omega
  · omega

theorem lt_sliceCount_backward {start stop step : Int} (hs : step < 0) (k : Nat) : k < sliceCount start stop step ↔ stop < start + step * k := by
  unfold sliceCount
  rw [if_pos hs]
  have hk : step * (k : Int) ≤ 0 := Int.mul_nonpos_of_nonpos_of_nonneg (by omega) (by omega)
  split
  · have h0 : 0 ≤ (start - stop - 1) / -step := Int.ediv_nonneg (by omega) (by omega)
    have := Int.le_ediv_iff_mul_le (a := (k : Int)) (b := start - stop - 1) (c := -step) (by omega)
    rw [Int.mul_neg, Int.mul_comm] at this
    omega
  · omega

/-- each of the indexes is a place in the list -/
theorem slicePlace {len : Nat} {step : Int} {a b : Option Int} (hs : step ≠ 0) {k : Nat}
    (hk : k < sliceCount (sliceStart len step a) (sliceStop len step b) step) :
    0 ≤ sliceStart len step a + step * k ∧ sliceStart len step a + step * k < len ∧ sliceStart len step a = sliceBegin len step a := by
  rcases Int.lt_or_gt_of_ne hs with h | h
  · rw [lt_sliceCount_backward h] at hk
    have h1 := sliceStart_backward (len := len) h a
    have h2 := (sliceStop_ge (len := len) (step := step) b).1
    have h3 : step * (k : Int) ≤ 0 := Int.mul_nonpos_of_nonpos_of_nonneg (by omega) (by omega)
    omega
  · rw [lt_sliceCount_forward h] at hk
    have h1 := sliceStart_forward (len := len) h a
    have h2 := (sliceStop_ge (len := len) (step := step) b).2 h
    have h3 : 0 ≤ step * (k : Int) := Int.mul_nonneg (by omega) (by omega)
    omega

theorem mem_sliceIndexes (len : Nat) (a b c : Option Int) (hc : c ≠ some 0) (p : Nat) :
    p ∈ sliceIndexes len a b c ↔ SliceHas len a b (c.getD 1) p := by
  have hs : c.getD 1 ≠ 0 := by
    cases c
    · simp
    · simpa using hc
  unfold sliceIndexes SliceHas
  generalize c.getD 1 = step at hs
  simp only [List.mem_map, List.mem_range]
  constructor
  · rintro ⟨k, hk, rfl⟩
    obtain ⟨h1, h2, h3⟩ := slicePlace hs hk
    have hp : (((sliceStart len step a + step * k).toNat : Nat) : Int) = sliceStart len step a + step * k := by omega
    refine ⟨by omega, ⟨k, by rw [hp, h3]⟩, fun j hj => ?_⟩
    rcases Int.lt_or_gt_of_ne hs with h | h
    · rw [if_neg (by omega)]
      rw [lt_sliceCount_backward h, ← hp] at hk
      exact (sliceStop_backward h b (by omega)).1 hk j hj
    · rw [if_pos h]
      rw [lt_sliceCount_forward h, ← hp] at hk
      exact ((sliceStop_forward h b _).1 hk).2 j hj
  · rintro ⟨hp, ⟨k, hk⟩, hj⟩
    rcases Int.lt_or_gt_of_ne hs with h | h
    · have h1 := sliceStart_backward (len := len) h a
      have h3 : step * (k : Int) ≤ 0 := Int.mul_nonpos_of_nonpos_of_nonneg (by omega) (by omega)
      have he : sliceStart len step a = sliceBegin len step a := by omega
      refine ⟨k, ?_, by omega⟩
      rw [lt_sliceCount_backward h, he, ← hk, sliceStop_backward h b hp]
      intro j hb
      have := hj j hb
      rwa [if_neg (by omega)] at this
    · have h1 := sliceStart_forward (len := len) h a
      have h3 : 0 ≤ step * (k : Int) := Int.mul_nonneg (by omega) (by omega)
      have he : sliceStart len step a = sliceBegin len step a := by omega
      refine ⟨k, ?_, by omega⟩
      rw [lt_sliceCount_forward h, he, ← hk, sliceStop_forward h b]
      refine ⟨hp, fun j hb => ?_⟩
      have := hj j hb
      rwa [if_pos h] at this

theorem sliceIndexes_ordered (len : Nat) (a b c : Option Int) (hc : c ≠ some 0) :
    (sliceIndexes len a b c).Pairwise (fun p q => if 0 < c.getD 1 then p < q else q < p) := by
  have hs : c.getD 1 ≠ 0 := by
    cases c
    · simp
    · simpa using hc
  unfold sliceIndexes
  generalize c.getD 1 = step at hs
  rw [List.pairwise_map]
  apply List.Pairwise.imp_of_mem _ List.pairwise_lt_range
  intro k l hk hl hkl
  obtain ⟨h1, h2, _⟩ := slicePlace hs (List.mem_range.1 hk)
  obtain ⟨h4, h5, _⟩ := slicePlace hs (List.mem_range.1 hl)
  split
  · rename_i h
    have := Int.mul_lt_mul_of_pos_left (show (k : Int) < l by omega) h
    omega
  · have := Int.mul_lt_mul_of_neg_left (show (k : Int) < l by omega) (show step < 0 by omega)
    omega

theorem sliceIndexes_lt {len : Nat} {a b c : Option Int} (hc : c ≠ some 0) {p : Nat} (hp : p ∈ sliceIndexes len a b c) : p < len :=
  ((mem_sliceIndexes len a b c hc p).1 hp).1

theorem pySlice_indexes {α : Type} (xs : List α) (a b c : Option Int) :
    pySlice xs a b c = (sliceIndexes xs.length a b c).filterMap fun p => xs[p]? := by
  simp only [pySlice, sliceIndexes, List.filterMap_map, Function.comp_def]

theorem length_writeIndexes {α : Type} : ∀ (is : List Nat) (xs ys : List α), (writeIndexes xs is ys).length = xs.length
  | [], _, _ => by simp [writeIndexes]
  | _ :: _, _, [] => by simp [writeIndexes]
  | i :: is, xs, y :: ys => by rw [writeIndexes, length_writeIndexes is, List.length_set]

theorem writeIndexes_get {α : Type} : ∀ (is : List Nat) (xs ys : List α), is.Nodup → (∀ i ∈ is, i < xs.length) →
    (∀ p, p ∉ is → (writeIndexes xs is ys)[p]? = xs[p]?) ∧
    (∀ (k i : Nat) (y : α), is[k]? = some i → ys[k]? = some y → (writeIndexes xs is ys)[i]? = some y)
  | [], xs, ys, _, _ => ⟨fun _ _ => by simp [writeIndexes], fun k i y h => by simp at h⟩
  | _ :: _, xs, [], _, _ => ⟨fun _ _ => by simp [writeIndexes], fun k i y _ h => by simp at h⟩
  | i :: is, xs, y :: ys, hn, hl => by
    rw [writeIndexes]
    obtain ⟨hn1, hn2⟩ := List.nodup_cons.1 hn
    obtain ⟨h1, h2⟩ := writeIndexes_get is (xs.set i y) ys hn2 (fun j hj => by rw [List.length_set]; exact hl j (List.mem_cons_of_mem _ hj))
    refine ⟨fun p hp => ?_, fun k j z hk hz => ?_⟩
    · rw [h1 p (fun h => hp (List.mem_cons_of_mem _ h)), List.getElem?_set_ne]
      exact fun h => hp (h ▸ List.mem_cons_self)
    · cases k with
      | zero =>
        simp only [List.getElem?_cons_zero, Option.some.injEq] at hk hz
        subst hk; subst hz
        rw [h1 i hn1, List.getElem?_set_self (hl i List.mem_cons_self)]
      | succ k => exact h2 k j z (by simpa using hk) (by simpa using hz)

theorem pyRemove_iff {α : Type} (eq : α → Bool) : ∀ (xs r : List α), pyRemove eq xs = some r ↔
    ∃ pre y post, xs = pre ++ y :: post ∧ eq y = true ∧ (∀ z ∈ pre, eq z = false) ∧ r = pre ++ post
  | [], r => by simp [pyRemove]
  | x :: xs, r => by
    rw [pyRemove]
    split
    · rename_i hx
      constructor
      · intro h
        cases h
        exact ⟨[], x, xs, rfl, hx, by simp, rfl⟩
      · rintro ⟨pre, y, post, h1, h2, h3, rfl⟩
        cases pre with
        | nil => cases h1; rfl
        | cons z pre => cases h1; rw [h3 _ List.mem_cons_self] at hx; cases hx
    · rename_i hx
      rw [Option.map_eq_some_iff]
      constructor
      · rintro ⟨r', h, rfl⟩
        obtain ⟨pre, y, post, h1, h2, h3, h4⟩ := (pyRemove_iff eq xs r').1 h
        refine ⟨x :: pre, y, post, by rw [h1]; rfl, h2, fun z hz => ?_, by rw [h4]; rfl⟩
        rcases List.mem_cons.1 hz with rfl | hz
        · simpa using hx
        · exact h3 z hz
      · rintro ⟨pre, y, post, h1, h2, h3, rfl⟩
        cases pre with
        | nil => cases h1; exact absurd h2 hx
        | cons z pre =>
          cases h1
          exact ⟨pre ++ post, (pyRemove_iff eq _ _).2 ⟨pre, y, post, rfl, h2, fun w hw => h3 w (List.mem_cons_of_mem _ hw), rfl⟩, rfl⟩

theorem pyRemove_none_iff {α : Type} (eq : α → Bool) : ∀ (xs : List α), pyRemove eq xs = none ↔ ∀ x ∈ xs, eq x = false
  | [] => by simp [pyRemove]
  | x :: xs => by
    rw [pyRemove]
    split
    · rename_i hx
      simp [hx]
    · rename_i hx
      rw [Option.map_eq_none_iff, pyRemove_none_iff eq xs]
      simp only [List.mem_cons, forall_eq_or_imp]
      exact ⟨fun h => ⟨by simpa using hx, h⟩, fun h => h.2⟩

end Flatland
