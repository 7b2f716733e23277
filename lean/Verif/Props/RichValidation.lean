import Verif.Proofs.RichValidation
import Verif.Props.FormValidation
/-! # C93: validating forms with Compounds and JoinedStrings -/
namespace Flatland
open Flatland.Spec

section
variable [Runtime]

/-- A whole form with Compounds and JoinedStrings in it is validated: if no validator raises, `validate()` ends; it returns True iff every element complies
with its own validators; each element is marked valid iff it does; each element gets exactly the messages of its first failing validator (and first failing
descent validator) in addition to those it had; and nothing else happens to flags and messages. -/
theorem C93_validate (e : NElem) (he : e ≠ .absent) (rules : Pos → RichField)
    (h : ∀ p k, At e p k → Decides e p (rules p).validators ∧ (containerN k = true → Decides e p (rules p).descent))
    (st : VState Pos (Pos → List PStr)) :
    ∃ r b n, (∀ m, n ≤ m → validateRich e rules m st = some r) ∧ r.result = .ok b ∧
      (b = true ↔ ∀ p k, At e p k → Complies e rules p k) ∧
      (∀ p k, At e p k →
        (Complies e rules p k → r.state.flag p = .yes) ∧ (¬ Complies e rules p k → r.state.flag p = .no) ∧
        ∀ text, text ∈ r.state.data p ↔ text ∈ st.data p ∨ Complaint e rules p k text) ∧
      ∀ p, (¬ ∃ k, At e p k) → r.state.flag p = st.flag p ∧ r.state.data p = st.data p := by
  have hse : shape e ≠ .absent := by cases e <;> simp [shape] at he ⊢
  obtain ⟨r, b, n, hrun, hb, hall, hel, hout⟩ := C74_validate (shape e) hse (plainRules e rules) (by
    intro p x hx
    obtain ⟨k, hk, rfl⟩ := (at_iff e p x).1 hx
    exact answers_plain e rules p k hk (h p k hk).1 (h p k hk).2) st
  have hat : ∀ p k, At e p k → elemAt (shape e) p = some (shape k) := fun p k hk => (at_iff e p _).2 ⟨k, hk, rfl⟩
  refine ⟨r, b, n, ?_, hb, ?_, ?_, ?_⟩
  · intro m hm
    rw [validateRich, richEnv_eq]
    exact hrun m hm
  · rw [hall]
    constructor
    · intro h p k hk
      exact (complies_iff e rules p k hk).1 (h p _ (hat p k hk))
    · intro h p x hx
      obtain ⟨k, hk, rfl⟩ := (at_iff e p x).1 hx
      exact (complies_iff e rules p k hk).2 (h p k hk)
  · intro p k hk
    obtain ⟨h1, h2, h3⟩ := hel p _ (hat p k hk)
    refine ⟨fun hc => h1 ((complies_iff e rules p k hk).2 hc), fun hc => h2 (fun ho => hc ((complies_iff e rules p k hk).1 ho)), fun text => ?_⟩
    rw [h3 text, complaint_iff e rules p k hk]
  · intro p hp
    refine hout p ?_
    cases hx : elemAt (shape e) p with
    | none => rfl
    | some x =>
      obtain ⟨k, hk, _⟩ := (at_iff e p x).1 hx
      exact absurd ⟨k, hk⟩ hp

/-- A compound date without validators is valid, with its parts, iff it is optional or none of its parts is left out – whatever its value: numbers that make
no day of the calendar and texts that are no numbers pass. -/
theorem C93_date (e : NElem) (rules : Pos → RichField) (p : Pos) (v : PyVal) (parts : List ScalarState) (h : DateAt e rules p v parts)
    (hv : (rules p).validators = []) :
    (∀ q k, (q = p ∨ ∃ i, q = p ++ [i]) → At e q k → Complies e rules q k) ↔ (rules p).optional = true ∨ ∀ a ∈ parts, ¬ Untouched a := by
  rw [dateAt_complies h, hv]
  obtain ⟨⟨n, u, n₁, n₂, n₃, a, b, c, rfl, _⟩, _, _⟩ := h
  simp only [List.not_mem_nil, false_implies, implies_true, true_and, true_implies, List.mem_cons, or_false, forall_eq_or_imp, forall_eq,
    exists_eq_or_imp, exists_eq_left]
  grind

/-- With the validator `Converted` it is valid iff it has a value and, if it is required, none of its parts is left out; or it is optional and all are. -/
theorem C93_date_converted (e : NElem) (rules : Pos → RichField) (p : Pos) (v : PyVal) (parts : List ScalarState) (h : DateAt e rules p v parts)
    (noter : NElem → Pos → Noter) (hv : (rules p).validators = [convertedRule noter]) :
    (∀ q k, (q = p ∨ ∃ i, q = p ++ [i]) → At e q k → Complies e rules q k) ↔
      (v ≠ .none ∧ ((rules p).optional = true ∨ ∀ a ∈ parts, ¬ Untouched a)) ∨ ((rules p).optional = true ∧ ∀ a ∈ parts, Untouched a) := by
  rw [dateAt_complies h, hv]
  obtain ⟨⟨n, u, n₁, n₂, n₃, a, b, c, rfl, hat⟩, _, _⟩ := h
  have hacc : (∀ r ∈ [convertedRule noter], Accepts e p r) ↔ v ≠ .none := by
    simp only [List.mem_singleton, forall_eq, Accepts, convertedRule, hat.1]
    cases v <;> simp [isNone]
  rw [hacc]
  simp only [List.cons_ne_nil, false_implies, and_true]
  grind

end

section examples
attribute [local instance] Runtime.ascii

/-- the 30th of February: the parts are numbers, the date has no value -/
def exDateForm (optional : Bool) (y m d : ScalarState) (v : PyVal) (u : PStr) (rs : List RichRule) : NElem × (Pos → RichField) :=
  (.dict none [.compound (some ['d']) u v [.scalar (some ['y']) y, .scalar (some ['m']) m, .scalar (some ['a']) d]],
    fun p => if p = [0] then { optional := optional, validators := rs } else { optional := optional })

def exSaying : NElem → Pos → Noter := fun _ _ => ⟨⟨[], .ok .none, .ok .none⟩, fun k => .ok (.fixed (.single k))⟩

def exNum (i : Int) : ScalarState := ⟨.int i, (toString i).toList, none⟩

theorem exDateForm_at (o : Bool) (y m d : ScalarState) (v : PyVal) (u : PStr) (rs : List RichRule) :
    DateAt (exDateForm o y m d v u rs).1 (exDateForm o y m d v u rs).2 [0] v [y, m, d] := by
  refine ⟨⟨_, _, _, _, _, _, _, _, rfl, rfl, by simp⟩, rfl, ?_⟩
  intro i _
  simp [exDateForm]

-- the required 30 February 2011 passes without `Converted`, and not with it; left out in part, a required one does not pass, an optional one does
example : ∀ p k, (p = [0] ∨ ∃ i, p = [0] ++ [i]) → At (exDateForm false (exNum 2011) (exNum 2) (exNum 30) .none [] []).1 p k →
    Complies (exDateForm false (exNum 2011) (exNum 2) (exNum 30) .none [] []).1 (exDateForm false (exNum 2011) (exNum 2) (exNum 30) .none [] []).2 p k :=
  (C93_date _ _ _ _ _ (exDateForm_at ..) rfl).2 (.inr (by simp [Untouched, exNum]))

def exValidated (f : NElem × (Pos → RichField)) : Option (Option Bool × List PStr × Flag) :=
  (validateRich f.1 f.2 20 ⟨fun _ => .unevaluated, fun _ => []⟩).map fun r => (r.result.toOption, r.state.data [0], r.state.flag [0])

example : exValidated (exDateForm false (exNum 2011) (exNum 2) (exNum 30) .none [] []) = some (some true, [], .yes) := by decide +kernel
example : exValidated (exDateForm false (exNum 2011) (exNum 2) (exNum 30) .none [] [convertedRule exSaying]) =
    some (some false, ["incorrect".toList], .no) := by decide +kernel
example : exValidated (exDateForm false (exNum 2011) (exNum 2) .fresh .none [] []) = some (some false, [], .yes) := by decide +kernel
example : exValidated (exDateForm true (exNum 2011) (exNum 2) .fresh .none [] []) = some (some true, [], .yes) := by decide +kernel
example : exValidated (exDateForm true .fresh .fresh .fresh .none [] [convertedRule exSaying]) = some (some true, [], .yes) := by decide +kernel

-- validators that decide everywhere
example : ∀ p k, At (exDateForm false (exNum 2011) (exNum 2) (exNum 30) .none [] [convertedRule exSaying]).1 p k →
    Decides (exDateForm false (exNum 2011) (exNum 2) (exNum 30) .none [] [convertedRule exSaying]).1 p
      ((exDateForm false (exNum 2011) (exNum 2) (exNum 30) .none [] [convertedRule exSaying]).2 p).validators := by
  intro p k _ r hr
  simp only [exDateForm] at hr
  split at hr
  · rename_i hp
    subst hp
    simp only [List.mem_singleton] at hr
    subst hr
    refine .inr ⟨some "incorrect".toList, "incorrect".toList, .fixed (.single "incorrect".toList), rfl, rfl, (msg_says _).1 rfl, rfl⟩
  · cases hr

end examples
end Flatland
