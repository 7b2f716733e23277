import Verif.Proofs.Rejected
/-!
Property theorems C02, last part: native values that an element rejects.
-/
namespace Flatland
open Spec
variable [Runtime]

/-- **C02 (rejected native values).** When a number, truth value, date, time, list or dict is rejected, its printed form is left in
`.u`; setting the element from that text is rejected as well, and changes neither `.u` nor the (missing) value. For a constrained Boolean this
needs literals that agree with the truth values of what they print. -/
theorem C02_rejected_native (hp : Printing) (b : Builtin) (st : ScalarState) (x : PyVal) (hx : Native x) (hn : x ≠ .none)
    (ho : ∀ n, x ≠ .obj n) (hl : LiteralsHonest b x) (hrej : (scalarSet b.type st x).2 = .ok false) :
    let r₁ := scalarSet b.type st x
    let r₂ := scalarSet b.type r₁.1 (.str r₁.1.u)
    r₁.1.u = pyText x ∧ r₂.1.u = r₁.1.u ∧ r₁.1.value = .none ∧ r₂.1.value = .none ∧ r₂.2 = .ok false := by
  intro r₁ r₂
  have ha : b.type.adapt x = .error .adaptation := by
    unfold scalarSet at hrej
    cases h : b.type.adapt x with
    | error e => rw [h] at hrej; cases e <;> first | rfl | cases hrej
    | ok v =>
      rw [h] at hrej
      cases v <;> simp only at hrej <;> first | cases hrej | (split at hrej <;> cases hrej)
  have h1 : r₁.1 = ⟨.none, pyText x, some x⟩ := by
    show (scalarSet b.type st x).1 = _
    unfold scalarSet; rw [ha]
    cases x <;> first | rfl | exact absurd rfl hn
  have h2 : b.type.adapt (.str (pyText x)) = .error .adaptation := by
    rcases printed_same_all hp hx hn ho hl with h | h
    · rw [h, ha]
    · exact h
  have h3 : r₂ = (⟨.none, pyText x, some (.str (pyText x))⟩, .ok false) := by
    show scalarSet b.type r₁.1 (.str r₁.1.u) = _
    rw [h1]; exact scalarSet_text_err h2
  rw [h1, h3]
  exact ⟨rfl, rfl, rfl, rfl, rfl⟩

omit [Runtime] in
/-- Non-vacuity: the printed forms are as assumed in a runtime that prints as Python does, and there an Enum of the integers 1 to 3 rejects 5, an
unsigned Integer -5, a Date the number 20091010 and an Enum of dates the day after. -/
example : letI := printing
    Printing ∧ (scalarSet (Builtin.enum (.integer true 0) [.int 1, .int 2, .int 3]).type .fresh (.int 5)).2 = .ok false ∧
      (scalarSet (Builtin.integer false 0).type .fresh (.int (-5))).2 = .ok false ∧
      (scalarSet (Builtin.date true).type .fresh (.int 20091010)).2 = .ok false ∧
      (scalarSet (Builtin.enum (.date true) [.date 2009 10 10]).type .fresh (.date 2009 10 11)).2 = .ok false := by
  letI := printing
  refine ⟨⟨by decide, fun y m d h => fmtDate_text h, fun h mi s us hr => ⟨_, _, rfl, fmtTime_text hr, ?_, ?_⟩,
    fun y m d h mi s us hd hr => ⟨_, _, _, rfl, fmtDate_text hd, fmtTime_text hr, ?_, ?_⟩,
    fun xs => ⟨_, rfl⟩, fun xs => ⟨_, rfl⟩⟩, by decide, by decide, by decide, by decide⟩
  · intro h; simp [h]
  · intro h; simp [h]
  · intro h; simp [h]
  · intro h; simp [h]

omit [Runtime] in
/-- Non-vacuity: with its default literals a Boolean takes the printed form of a number or a truth value only as that truth value. -/
example : letI := printing
    LiteralsHonest (.enum (.boolean {}) [.bool false]) (.int 2) ∧ LiteralsHonest (.enum (.boolean {}) [.bool false]) (.bool true) ∧
      LiteralsHonest (.enum (.boolean {}) [.bool true]) (.int 0) := by
  letI := printing
  refine ⟨?_, ?_, ?_⟩ <;> (intro c hc; cases hc; simp only [← truthy_iff]; decide +kernel)

/-- Without that: a Boolean one of whose false synonyms is the printed form of a true value, constrained to False, rejects the value but takes its text
and then shows the literal of False. -/
theorem C02_rejected_literal_changes :
    let t := (Builtin.enum (.boolean { falseSyn := ["5".toList] }) [.bool false]).type
    let r₁ := scalarSet t .fresh (.int 5)
    let r₂ := scalarSet t r₁.1 (.str r₁.1.u)
    r₁.2 = .ok false ∧ r₁.1.u = "5".toList ∧ r₂.2 = .ok true ∧ r₂.1.u = [] := by
  have h5 : decimalInt 5 = ['5'] := by
    show decimal 5 = _
    rw [decimal_lt (by decide)]; rfl
  simp [scalarSet, Builtin.type, enumType, constrainedType, booleanType, truthy, bind, Except.bind, enumValid, pyEq, pyText, h5]

end Flatland
