import Verif.Proofs.PyLists
/-
C25, the ground it stands on: the other theorems of C25 say that Lists and Arrays do to their members what Python's list does; here the list
operations are checked against the documentation of Python's lists (`Verif/Spec/PyLists.lean`).
-/
namespace Flatland
open Flatland.Spec

/-- C25, indexes: `xs[i]` is the item at place `i`, or at place `i + len(xs)`; for any other `i` it is an IndexError. -/
theorem C25_python_index (len : Nat) (i : Int) :
    (∀ j, pyIndex len i = some j ↔ j < len ∧ (i = j ∨ i = (j : Int) - len)) ∧
    (pyIndex len i = none ↔ i < -(len : Int) ∨ (len : Int) ≤ i) :=
  ⟨pyIndex_iff len i, pyIndex_none_iff len i⟩

/-- C25: `xs.insert(i, x)` puts the item before the one at place `i`, counted from the end if `i` is negative; at the beginning if there are
not so many items before the end, and at the end if there are not so many at all. -/
theorem C25_python_insert {α : Type} (xs : List α) (i : Int) (x : α) :
    ∃ pre post, xs = pre ++ post ∧ pyInsert xs i x = pre ++ x :: post ∧
      (fromEnd xs.length i < 0 → pre = []) ∧ (xs.length < fromEnd xs.length i → post = []) ∧
      (0 ≤ fromEnd xs.length i → fromEnd xs.length i ≤ xs.length → (pre.length : Int) = fromEnd xs.length i) := by
  obtain ⟨h0, h1, h2, h3⟩ := insertPos_spec xs.length i
  refine ⟨_, _, (List.take_append_drop (insertPos xs.length i) xs).symm, rfl, fun h => ?_, fun h => ?_, fun h h' => ?_⟩
  · rw [h1 h, List.take_zero]
  · rw [h2 h, List.drop_length]
  · rw [List.length_take, Nat.min_eq_left h0]
    exact h3 h h'

/-- C25, slices: `xs[a:b:c]` has the items at the places the slice has, in rising order, or in falling order if the step is negative. -/
theorem C25_python_slice {α : Type} (xs : List α) (a b c : Option Int) (hc : c ≠ some 0) :
    ∃ ps : List Nat, (∀ p, p ∈ ps ↔ SliceHas xs.length a b (c.getD 1) p) ∧ ps.Pairwise (fun p q => if 0 < c.getD 1 then p < q else q < p) ∧
      (pySlice xs a b c).map some = ps.map fun p => xs[p]? := by
  refine ⟨_, mem_sliceIndexes _ a b c hc, sliceIndexes_ordered _ a b c hc, ?_⟩
  rw [pySlice_indexes, List.map_filterMap]
  have : ∀ ps : List Nat, (∀ p ∈ ps, p < xs.length) → (ps.filterMap fun p => (xs[p]?).map some) = ps.map fun p => xs[p]? := by
    intro ps
    induction ps with
    | nil => exact fun _ => rfl
    | cons p ps ih =>
      intro h
      have hp := h p List.mem_cons_self
      simp only [List.filterMap_cons, List.getElem?_eq_getElem hp, Option.map_some, List.map_cons, ih fun q hq => h q (List.mem_cons_of_mem _ hq)]
  exact this _ fun p hp => sliceIndexes_lt hc hp

/-- C25: `del xs[a:b:c]` leaves the items at the other places, in order; a step of zero is a ValueError. -/
theorem C25_python_delslice {α : Type} (xs : List α) (a b c : Option Int) :
    (c = some 0 → pyDelSlice xs a b c = .error .value) ∧
    (c ≠ some 0 → ∃ keep : Nat → Bool, (∀ p, keep p = true ↔ ¬ SliceHas xs.length a b (c.getD 1) p) ∧
      pyDelSlice xs a b c = .ok (((List.range xs.length).filter keep).filterMap fun p => xs[p]?)) := by
  refine ⟨fun h => by simp [pyDelSlice, h], fun hc => ⟨fun p => !(sliceIndexes xs.length a b c).contains p, fun p => ?_, ?_⟩⟩
  · rw [← mem_sliceIndexes _ a b c hc]
    simp
  · rw [pyDelSlice, if_neg hc, eraseIndexes]
    congr 1
    rw [List.filterMap_filter]
    congr 1
    funext p
    cases (sliceIndexes xs.length a b c).contains p <;> rfl

/-- C25: `xs[a:b] = ys`, whatever the number of items: they are put in place of the items of the slice; if the slice has none, before the
item the slice begins at. -/
theorem C25_python_setslice {α : Type} (xs : List α) (a b c : Option Int) (hc : c.getD 1 = 1) (ys : List α) :
    ∃ pre old post, xs = pre ++ old ++ post ∧ pySetSlice xs a b c ys = .ok (pre ++ ys ++ post) ∧
      (pre.length : Int) = min (sliceBegin xs.length 1 a) xs.length ∧
      ∀ p, SliceHas xs.length a b 1 p ↔ pre.length ≤ p ∧ p < pre.length + old.length := by
  have hc0 : c ≠ some 0 := by rintro rfl; cases hc
  have hs := sliceStart_forward (len := xs.length) (step := 1) (by decide) a
  have hp := (sliceStop_ge (len := xs.length) (step := 1) b).2 (by decide)
  have hstart : sliceStart xs.length 1 a ≤ xs.length := by
    cases a <;> simp only [sliceStart]
    · split <;> omega
    · repeat' split
      all_goals omega
  have hmin : sliceStart xs.length 1 a = min (sliceBegin xs.length 1 a) xs.length := by omega
  generalize hst : (sliceStart xs.length 1 a).toNat = st at *
  generalize hsp : max st (sliceStop xs.length 1 b).toNat = sp at *
  have h1 : st ≤ sp := by omega
  have h2 : sp ≤ xs.length := by omega
  refine ⟨xs.take st, (xs.drop st).take (sp - st), xs.drop sp, ?_, ?_, ?_, fun p => ?_⟩
  · rw [List.append_assoc]
    have : xs.drop sp = (xs.drop st).drop (sp - st) := by rw [List.drop_drop]; congr 1; omega
    rw [this, List.take_append_drop, List.take_append_drop]
  · simp only [pySetSlice, if_neg hc0, if_pos hc, hst, hsp]
  · rw [List.length_take, ← hmin]
    omega
  · have hm := mem_sliceIndexes xs.length a b none (by simp) p
    simp only [Option.getD_none] at hm
    rw [← hm, List.length_take, List.length_take, List.length_drop]
    simp only [sliceIndexes, Option.getD_none, List.mem_map, List.mem_range, Int.one_mul]
    constructor
    · rintro ⟨k, hk, rfl⟩
      rw [lt_sliceCount_forward (by decide)] at hk
      omega
    · rintro ⟨h3, h4⟩
      refine ⟨p - st, ?_, by omega⟩
      rw [lt_sliceCount_forward (by decide)]
      omega

/-- C25: `xs[a:b:c] = ys` with a step other than 1 needs as many items as the slice has and puts them there one by one, in the slice's order;
otherwise it is a ValueError, as with a step of zero. -/
theorem C25_python_setslice_extended {α : Type} (xs : List α) (a b c : Option Int) (ys : List α) :
    (c = some 0 → pySetSlice xs a b c ys = .error .value) ∧
    (c ≠ some 0 → c.getD 1 ≠ 1 → ∃ ps : List Nat,
      (∀ p, p ∈ ps ↔ SliceHas xs.length a b (c.getD 1) p) ∧ ps.Pairwise (fun p q => if 0 < c.getD 1 then p < q else q < p) ∧
      (ps.length ≠ ys.length → pySetSlice xs a b c ys = .error .value) ∧
      (ps.length = ys.length → ∃ r, pySetSlice xs a b c ys = .ok r ∧ r.length = xs.length ∧ (∀ p, p ∉ ps → r[p]? = xs[p]?) ∧
        ∀ (k p : Nat) (y : α), ps[k]? = some p → ys[k]? = some y → r[p]? = some y)) := by
  refine ⟨fun h => by simp [pySetSlice, h], fun hc h1 => ⟨_, mem_sliceIndexes _ a b c hc, sliceIndexes_ordered _ a b c hc, fun hl => ?_, fun hl => ?_⟩⟩
  · rw [pySetSlice, if_neg hc, if_neg h1, if_neg hl]
  · refine ⟨_, by rw [pySetSlice, if_neg hc, if_neg h1, if_pos hl], length_writeIndexes _ _ _, ?_⟩
    refine writeIndexes_get _ xs ys ?_ fun p hp => sliceIndexes_lt hc hp
    refine (sliceIndexes_ordered xs.length a b c hc).imp fun {p q} h => ?_
    split at h <;> omega

/-- C25: `xs.remove(x)` takes out the first item equal to `x`, and only that; there is none exactly if it is a ValueError. -/
theorem C25_python_remove {α : Type} (eq : α → Bool) (xs : List α) :
    (∀ r, pyRemove eq xs = some r ↔
      ∃ pre y post, xs = pre ++ y :: post ∧ eq y = true ∧ (∀ z ∈ pre, eq z = false) ∧ r = pre ++ post) ∧
    (pyRemove eq xs = none ↔ ∀ x ∈ xs, eq x = false) :=
  ⟨pyRemove_iff eq xs, pyRemove_none_iff eq xs⟩

-- `[0, 1, 2, 3, 4, 5][-2::-2]` is `[4, 2, 0]`, and it is so by the rule
example : SliceHas 6 (some (-2)) none (-2) 2 ∧ ¬ SliceHas 6 (some (-2)) none (-2) 3 ∧ pySlice [0, 1, 2, 3, 4, 5] (some (-2)) none (some (-2)) = [4, 2, 0] := by
  refine ⟨⟨by decide, ⟨1, by decide⟩, by simp⟩, ?_, by decide⟩
  rintro ⟨_, ⟨k, hk⟩, _⟩
  rw [show sliceBegin 6 (-2) (some (-2)) = 4 by decide] at hk
  omega
example : pySetSlice [0, 1, 2] (some 2) (some 1) none [7, 8] = .ok [0, 1, 7, 8, 2] := by rfl
example : pySetSlice [0, 1, 2] none none (some 2) [7, 8] = .ok [7, 1, 8] ∧ pySetSlice [0, 1, 2] none none (some 2) [7] = .error .value := ⟨rfl, rfl⟩
example : pyIndex 3 (-3) = some 0 ∧ pyIndex 3 (-4) = none ∧ pyInsert [1, 2, 3] (-1) 9 = [1, 2, 9, 3] := by decide

end Flatland
