import Verif.Proofs.Refs
/-!
C53: a Ref mirrors its target.  (flatland/schema/scalars.py:558-617)
-/
namespace Flatland
open Spec

section
variable [Runtime]

/-- **C53 (mirror).** Whatever is done through the Ref, to its target, to other elements or to the form as a whole, a Ref shows the value
and text of the element at its path — as long as that element is not replaced without the Ref. -/
theorem C53_mirrors (wr : Writable) (w : RefWorld) (hw : w.cached = .none) (ops : List RefOp) (ho : ∀ op ∈ ops, op.InPlace) :
    Mirrors (refRun wr w ops) :=
  mirrors_of_inv (run_inv wr ops w ho (.inl hw))

/-- **C53 (write through).** Setting a writable Ref has on its target's value and text the effect of setting the target, with the same
result; no other element changes.  (The target's `raw` stays.) -/
theorem C53_writes (w : RefWorld) (hw : w.cached = .none) (ops : List RefOp) (ho : ∀ op ∈ ops, op.InPlace) (v : PyVal) (n : Nat)
    (hn : (refRun .yes w ops).here = some n) :
    let b := refRun .yes w ops
    (refSet .yes b v).2 = (scalarSet (b.types n) (b.cells n) v).2 ∧
    ((refSet .yes b v).1.cells n).value = (scalarSet (b.types n) (b.cells n) v).1.value ∧
    ((refSet .yes b v).1.cells n).u = (scalarSet (b.types n) (b.cells n) v).1.u ∧
    ((refSet .yes b v).1.cells n).raw = (b.cells n).raw ∧
    ∀ k, k ≠ n → (refSet .yes b v).1.cells k = b.cells k := by
  have hi := run_inv .yes ops w ho (.inl hw)
  generalize refRun .yes w ops = b at hi hn
  simp only
  unfold refSet
  simp only [target_seen hi hn v]
  simp only [refThen, refSetValue, refSetU, refTarget, RefWorld.seen, RefWorld.put, scalarSet]
  cases ha : (b.types n).adapt v with
  | error e =>
    cases e <;> (simp; try (intro k hk; simp [hk]))
    refine ⟨?_, ?_⟩
    · cases v <;> rfl
    · intro k hk; simp [hk]
  | ok x =>
    cases x <;> simp only [if_pos rfl]
    case none => simp +contextual
    all_goals
      first
      | (generalize hser : (b.types n).serialize _ = s
         cases s <;> simp +contextual)

/-- **C53 (ignore).** Setting a Ref with writable='ignore' changes no element and raises what the target's own adaptation raises, if
anything; its result says whether the target would have accepted the value. -/
theorem C53_ignores (w : RefWorld) (hw : w.cached = .none) (ops : List RefOp) (ho : ∀ op ∈ ops, op.InPlace) (v : PyVal) (n : Nat)
    (hn : (refRun .ignore w ops).here = some n) :
    let b := refRun .ignore w ops
    (refSet .ignore b v).1.cells = b.cells ∧ (refSet .ignore b v).2 = (scalarSet (b.types n) (b.cells n) v).2 := by
  have hi := run_inv .ignore ops w ho (.inl hw)
  generalize refRun .ignore w ops = b at hi hn
  refine ⟨refSet_cells (by simp) b v, ?_⟩
  unfold refSet
  simp only [target_seen hi hn v]
  simp only [refThen, refSetValue, refSetU, refTarget, RefWorld.seen, scalarSet]
  cases ha : (b.types n).adapt v with
  | error e => cases e <;> simp
  | ok x =>
    cases x <;> simp only []
    all_goals
      first
      | rfl
      | (generalize hser : (b.types n).serialize _ = s
         cases s <;> rfl)

/-- **C53 (read-only).** Setting a Ref that is not writable raises TypeError (or what the target's own adaptation raises, other than
AdaptationError) and changes no element. -/
theorem C53_refuses (w : RefWorld) (hw : w.cached = .none) (ops : List RefOp) (ho : ∀ op ∈ ops, op.InPlace) (v : PyVal) (n : Nat)
    (hn : (refRun .no w ops).here = some n) :
    let b := refRun .no w ops
    (refSet .no b v).1.cells = b.cells ∧
    ((∀ e, (b.types n).adapt v = .error e → e = .adaptation) → (refSet .no b v).2 = .error .type) ∧
    (∀ e, (b.types n).adapt v = .error e → e ≠ .adaptation → (refSet .no b v).2 = .error e) := by
  have hi := run_inv .no ops w ho (.inl hw)
  generalize refRun .no w ops = b at hi hn
  refine ⟨refSet_cells (by simp) b v, ?_, ?_⟩
  all_goals
    unfold refSet
    simp only [target_seen hi hn v]
    simp only [refThen, refSetValue, refSetU, RefWorld.seen]
  · intro h
    cases ha : (b.types n).adapt v with
    | error e => have := h e ha; subst this; rfl
    | ok x => cases x <;> rfl
  · intro e ha he
    rw [ha]
    cases e <;> first | rfl | exact absurd rfl he

omit [Runtime] in
/-- **C53 (attributes).** Assigning to `value` or `u` of a Ref that is not writable changes no element: with 'ignore' silently, otherwise
with a TypeError.  This holds in every state. -/
theorem C53_attributes (w : RefWorld) (v : PyVal) (u : PStr) :
    refSetValue .ignore w v = (w, .ok ()) ∧ refSetU .ignore w u = (w, .ok ()) ∧
    refSetValue .no w v = (w, .error .type) ∧ refSetU .no w u = (w, .error .type) := ⟨rfl, rfl, rfl, rfl⟩

/-- **C53 (submissions).** A submission that does not name the Ref does nothing to any element. One that does – the first value counts –
is not taken over by a Ref that ignores writes; it sets the target of a writable one, value and text, as setting the target would, and nothing
else; and on a Ref that is not writable it makes `set_flat` raise TypeError, with nothing changed: a form with such a Ref can be made to
raise by naming it. (As long as adapting the text does not raise something unexpected.) -/
theorem C53_submitted (wr : Writable) (w : RefWorld) (hw : w.cached = .none) (ops : List RefOp) (ho : ∀ op ∈ ops, op.InPlace) (name : PStr)
    (pairs : List (PStr × PStr)) (n : Nat) (hn : (refRun wr w ops).here = some n) :
    let b := refRun wr w ops
    let after := refSetFlat wr name b pairs
    (name ∉ pairs.map Prod.fst → after.1.cells = b.cells ∧ after.2 = .ok ()) ∧
    ∀ pre v post, pairs = pre ++ (name, v) :: post → name ∉ pre.map Prod.fst → ∀ res, (scalarSet (b.types n) (b.cells n) (.str v)).2 = .ok res →
      (∀ e, (b.types n).adapt (.str v) = .error e → e = .adaptation) →
      (wr = .ignore → after.1.cells = b.cells ∧ after.2 = .ok ()) ∧
      (wr = .no → after.1.cells = b.cells ∧ after.2 = .error .type) ∧
      (wr = .yes → after.2 = .ok () ∧ (after.1.cells n).value = (scalarSet (b.types n) (b.cells n) (.str v)).1.value ∧
        (after.1.cells n).u = (scalarSet (b.types n) (b.cells n) (.str v)).1.u ∧ ∀ m, m ≠ n → after.1.cells m = b.cells m) := by
  intro b after
  constructor
  · intro hno
    have hf : pairs.find? (fun p => decide (p.1 = name)) = .none := by
      rw [List.find?_eq_none]
      intro p hp
      simp only [decide_eq_true_eq]
      rintro rfl
      exact hno (List.mem_map.2 ⟨p, hp, rfl⟩)
    have ha : after = ({ b with refRaw := .none }, .ok ()) := by
      show refSetFlat wr name b pairs = _
      unfold refSetFlat
      rw [hf]
    rw [ha]
    exact ⟨rfl, rfl⟩
  · intro pre v post heq hpre res hres had
    have hf : pairs.find? (fun p => decide (p.1 = name)) = some (name, v) := by
      rw [heq, List.find?_append, List.find?_eq_none.2]
      · simp
      · intro p hp
        simp only [decide_eq_true_eq]
        rintro rfl
        exact hpre (List.mem_map.2 ⟨p, hp, rfl⟩)
    have ha : after = refThen (refSet wr b (.str v)) fun w _ => (w, .ok ()) := by
      show refSetFlat wr name b pairs = _
      unfold refSetFlat
      rw [hf]
      rfl
    have hcells : after.1.cells = (refSet wr b (.str v)).1.cells := by
      rw [ha]
      generalize refSet wr b (.str v) = r
      obtain ⟨w', x⟩ := r
      cases x <;> rfl
    have hok : ∀ x, (refSet wr b (.str v)).2 = .ok x → after.2 = .ok () := by
      rw [ha]
      generalize refSet wr b (.str v) = r
      obtain ⟨w', x⟩ := r
      rintro y h
      simp only at h
      subst h
      rfl
    have herr : ∀ x, (refSet wr b (.str v)).2 = .error x → after.2 = .error x := by
      rw [ha]
      generalize refSet wr b (.str v) = r
      obtain ⟨w', x⟩ := r
      rintro y h
      simp only at h
      subst h
      rfl
    refine ⟨?_, ?_, ?_⟩
    · rintro rfl
      obtain ⟨h1, h2⟩ := C53_ignores w hw ops ho (.str v) n hn
      exact ⟨hcells.trans h1, hok res (h2.trans hres)⟩
    · rintro rfl
      obtain ⟨h1, h2, _⟩ := C53_refuses w hw ops ho (.str v) n hn
      exact ⟨hcells.trans h1, herr _ (h2 had)⟩
    · rintro rfl
      obtain ⟨h1, h2, h3, _, h5⟩ := C53_writes w hw ops ho (.str v) n hn
      refine ⟨hok res (h1.trans hres), ?_, ?_, ?_⟩
      · rw [hcells]; exact h2
      · rw [hcells]; exact h3
      · intro m hm; rw [hcells]; exact h5 m hm

/-- **C53 (no write gets through).** Over any history, steps through a Ref that is not writable change no element. -/
theorem C53_untouched (wr : Writable) (hwr : wr ≠ .yes) (w : RefWorld) (ops : List RefOp) (ho : ∀ op ∈ ops, op.ByRef) :
    (refRun wr w ops).cells = w.cells := by
  induction ops generalizing w with
  | nil => rfl
  | cons op ops ih =>
    refine (ih (refStep wr w op) fun o hm => ho o (List.mem_cons_of_mem _ hm)).trans ?_
    have := ho op List.mem_cons_self
    cases op with
    | read =>
      have ht := (target_here w).2.1
      simp only [refStep, refRead]
      split
      · rename_i w' n he; rw [he] at ht; exact ht
      · rename_i w' n he; rw [he] at ht; exact ht
    | refSet v => exact refSet_cells hwr w v
    | refValue v => exact setValue_cells hwr w v
    | refU u => exact setU_cells hwr w u
    | _ => exact this.elim

end

section
attribute [local instance] Runtime.ascii

/-- two Strings, the Ref's path leads to the first -/
private def refForm : RefWorld := ⟨fun _ => stringType true, fun _ => .fresh, some 0, .none, .none⟩

/-- a history that meets the hypotheses -/
example : (∀ op ∈ [RefOp.set 0 (.str ['3']), .refSet (.str ['7']), .read, .rebuild (some 1), .refSet (.str ['4'])], op.InPlace) ∧
    (refRun .yes refForm [RefOp.set 0 (.str ['3']), .refSet (.str ['7']), .read, .rebuild (some 1), .refSet (.str ['4'])]).here = some 1 ∧
    (refRead (refRun .yes refForm [RefOp.set 0 (.str ['3']), .refSet (.str ['7']), .read, .rebuild (some 1), .refSet (.str ['4'])])).2 = .ok (.str ['4'], ['4']) := by
  refine ⟨?_, rfl, rfl⟩
  simp [RefOp.InPlace]

/-- **C53 (limit).** When the container of the target is set anew after the Ref has been read, the Ref goes on showing, and writing to, the
element that is no longer in the form. -/
theorem C53_stale :
    let b := refRun .yes refForm [RefOp.set 0 (.str ['3']), .read, .move (some 1), .set 1 (.str ['5'])]
    ¬ Mirrors b ∧ b.here = some 1 ∧ (refRead b).2 = .ok (.str ['3'], ['3']) ∧ ((refSet .yes b (.str ['9'])).1.cells 1).value = .str ['5'] := by
  refine ⟨?_, rfl, rfl, rfl⟩
  intro h
  have h' : (refRead (refRun .yes refForm [RefOp.set 0 (.str ['3']), .read, .move (some 1), .set 1 (.str ['5'])])).2 = .ok (.str ['5'], ['5']) := h
  exact absurd h' (by decide)

end

end Flatland
