import Verif.Spec.Refs
/-
Lemmas for C53.
-/
namespace Flatland
open Spec
variable [Runtime]

/-- The cache is empty or right. -/
def RefInv (w : RefWorld) : Prop := w.cached = .none ∨ w.cached = w.here

omit [Runtime] in
theorem mirrors_of_inv {w : RefWorld} (h : RefInv w) : Mirrors w := by
  unfold Mirrors
  cases hh : w.here with
  | none =>
    rcases h with h | h
    · simp [refRead, refTarget, h, hh]
    · simp [refRead, refTarget, h, hh]
  | some n =>
    rcases h with h | h
    · simp [refRead, refTarget, h, hh]
    · simp [refRead, refTarget, h, hh]

omit [Runtime] in
theorem target_here (w : RefWorld) : (refTarget w).1.here = w.here ∧ (refTarget w).1.cells = w.cells ∧ (refTarget w).1.types = w.types := by
  unfold refTarget
  split
  · exact ⟨rfl, rfl, rfl⟩
  · split <;> exact ⟨rfl, rfl, rfl⟩

omit [Runtime] in
theorem target_inv {w : RefWorld} (h : RefInv w) : RefInv (refTarget w).1 := by
  unfold refTarget
  split
  · exact h
  · split
    · rename_i n hn; right; exact hn.symm
    · exact h

omit [Runtime] in
theorem setValue_inv (wr : Writable) {w : RefWorld} (h : RefInv w) (v : PyVal) : RefInv (refSetValue wr w v).1 := by
  unfold refSetValue
  cases wr with
  | ignore => exact h
  | no => exact h
  | yes =>
    have := target_inv h
    simp only
    split
    · rename_i w' n he; rw [he] at this; exact this
    · rename_i w' n he; rw [he] at this; exact this

omit [Runtime] in
theorem setU_inv (wr : Writable) {w : RefWorld} (h : RefInv w) (u : PStr) : RefInv (refSetU wr w u).1 := by
  unfold refSetU
  cases wr with
  | ignore => exact h
  | no => exact h
  | yes =>
    have := target_inv h
    simp only
    split
    · rename_i w' n he; rw [he] at this; exact this
    · rename_i w' n he; rw [he] at this; exact this

omit [Runtime] in
theorem then_inv {α β : Type} (P : RefWorld → Prop) (r : RefWorld × Except PyErr α) (f : RefWorld → α → RefWorld × Except PyErr β)
    (h : P r.1) (hf : ∀ w a, P w → P (f w a).1) : P (refThen r f).1 := by
  obtain ⟨w, x⟩ := r
  cases x with
  | ok a => exact hf w a h
  | error e => exact h

theorem refSet_keeps (P : RefWorld → Prop) (wr : Writable) (hraw : ∀ w v, P w → P { w with refRaw := some v })
    (ht : ∀ w, P w → P (refTarget w).1) (hv : ∀ w v, P w → P (refSetValue wr w v).1) (hu : ∀ w u, P w → P (refSetU wr w u).1)
    (w : RefWorld) (v : PyVal) (h : P w) : P (refSet wr w v).1 := by
  unfold refSet
  apply then_inv P _ _ (ht _ (hraw _ v h))
  intro w n h
  split
  · apply then_inv P _ _ (hv _ _ h)
    intro w _ h
    apply then_inv P _ _ (hu _ _ h)
    intro w _ h; exact h
  · exact h
  · apply then_inv P _ _ (hv _ _ h)
    intro w _ h
    split
    · apply then_inv P _ _ (hu _ _ h)
      intro w _ h; exact h
    · apply then_inv P _ _ (ht _ h)
      intro w n h
      split
      · exact h
      · apply then_inv P _ _ (hu _ _ h)
        intro w _ h; exact h

theorem step_inv (wr : Writable) {w : RefWorld} (op : RefOp) (ho : op.InPlace) (h : RefInv w) : RefInv (refStep wr w op) := by
  cases op with
  | read =>
    have := target_inv h
    simp only [refStep, refRead]
    split
    · rename_i w' n he; rw [he] at this; exact this
    · rename_i w' n he; rw [he] at this; exact this
  | refSet v => exact refSet_keeps RefInv wr (fun _ _ h => h) (fun _ h => target_inv h) (fun _ v h => setValue_inv wr h v) (fun _ u h => setU_inv wr h u) w v h
  | refValue v => exact setValue_inv wr h v
  | refU u => exact setU_inv wr h u
  | set n v => exact h
  | assign n st => exact h
  | rebuild n => exact .inl rfl
  | move n => exact ho.elim

theorem run_inv (wr : Writable) (ops : List RefOp) : ∀ (w : RefWorld), (∀ op ∈ ops, op.InPlace) → RefInv w → RefInv (refRun wr w ops) := by
  induction ops with
  | nil => intro w _ h; exact h
  | cons op ops ih =>
    intro w ho h
    exact ih _ (fun o hm => ho o (List.mem_cons_of_mem _ hm)) (step_inv wr op (ho op List.mem_cons_self) h)

omit [Runtime] in
/-- Nothing written. -/
theorem setValue_cells {wr : Writable} (hw : wr ≠ .yes) (w : RefWorld) (v : PyVal) : (refSetValue wr w v).1.cells = w.cells := by
  cases wr with
  | ignore => rfl
  | no => rfl
  | yes => exact absurd rfl hw

omit [Runtime] in
theorem setU_cells {wr : Writable} (hw : wr ≠ .yes) (w : RefWorld) (u : PStr) : (refSetU wr w u).1.cells = w.cells := by
  cases wr with
  | ignore => rfl
  | no => rfl
  | yes => exact absurd rfl hw

theorem refSet_cells {wr : Writable} (hw : wr ≠ .yes) (w : RefWorld) (v : PyVal) : (refSet wr w v).1.cells = w.cells :=
  refSet_keeps (fun x => x.cells = w.cells) wr (fun _ _ h => h) (fun x h => (target_here x).2.1.trans h)
    (fun x v h => (setValue_cells hw x v).trans h) (fun x u h => (setU_cells hw x u).trans h) w v rfl

/-- after the first dereference -/
def RefWorld.seen (w : RefWorld) (n : Nat) (v : PyVal) : RefWorld := { w with refRaw := some v, cached := some n }

omit [Runtime] in
theorem target_seen {w : RefWorld} {n : Nat} (hi : RefInv w) (hn : w.here = some n) (v : PyVal) :
    refTarget { w with refRaw := some v } = (w.seen n v, .ok n) := by
  unfold refTarget RefWorld.seen
  rcases hi with h | h
  · simp only [h, hn]
  · simp only [h, hn]

end Flatland
