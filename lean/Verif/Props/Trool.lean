import Verif.Spec.Trool
/-!
C61: three-valued logic and the parsing of switches.
-/
namespace Flatland
open Spec

/-- **C61 (and).** `&` of truth values, at least one of which may be Maybe, is the smaller one. -/
theorem C61_and (a b : Operand) (i j : Nat) (ha : rank a = some i) (hb : rank b = some j) :
    ∃ c, troolAnd a b = .ok c ∧ rank c = some (min i j) := by
  rcases a with (_ | _) | _ | _ <;> rcases b with (_ | _) | _ | _ <;> simp_all [rank, troolAnd, maybeAnd, orTypeError] <;> omega

/-- **C61 (or).** `|` is the larger one. -/
theorem C61_or (a b : Operand) (i j : Nat) (ha : rank a = some i) (hb : rank b = some j) :
    ∃ c, troolOr a b = .ok c ∧ rank c = some (max i j) := by
  rcases a with (_ | _) | _ | _ <;> rcases b with (_ | _) | _ | _ <;> simp_all [rank, troolOr, maybeOr, orTypeError] <;> omega

/-- **C61 (not).** `Maybe.not_` swaps True and False and keeps Maybe. -/
theorem C61_not (a : Operand) (i : Nat) (ha : rank a = some i) : ∃ c, troolNot a = .ok c ∧ rank c = some (2 - i) := by
  rcases a with (_ | _) | _ | _ <;> simp_all [rank, troolNot] <;> omega

/-- **C61 (truth).** `Maybe.truth` is False for False only. -/
theorem C61_truth (a : Operand) (i : Nat) (ha : rank a = some i) : troolTruth a = .ok (decide (0 < i)) := by
  rcases a with (_ | _) | _ | _ <;> simp_all [rank, troolTruth] <;> omega

/-- **C61.** Truth values are told apart by their rank, so the four theorems above determine every result. -/
theorem C61_rank_injective (a b : Operand) (i : Nat) (ha : rank a = some i) (hb : rank b = some i) : a = b := by
  rcases a with (_ | _) | _ | _ <;> rcases b with (_ | _) | _ | _ <;> simp_all [rank] <;> omega

/-- **C61 (Maybe absorbs).** Maybe with Maybe is Maybe; only False with `&`, and True with `|`, decide. -/
theorem C61_absorbs (a : Operand) :
    (troolAnd .maybe a = .ok .maybe ↔ a = .bool true ∨ a = .maybe) ∧ (troolAnd .maybe a = .ok (.bool false) ↔ a = .bool false) ∧
    (troolOr .maybe a = .ok .maybe ↔ a = .bool false ∨ a = .maybe) ∧ (troolOr .maybe a = .ok (.bool true) ↔ a = .bool true) ∧
    troolAnd a .maybe = troolAnd .maybe a ∧ troolOr a .maybe = troolOr .maybe a := by
  rcases a with (_ | _) | _ | _ <;> simp [troolAnd, maybeAnd, troolOr, maybeOr, orTypeError]

/-- **C61 (other operands).** Anything that is neither True, False nor Maybe gives a TypeError, and `bool(Maybe)` is an error: Maybe cannot
be mistaken for a boolean. -/
theorem C61_other (n : Nat) (truthObj : Nat → Bool) :
    troolAnd .maybe (.other n) = .error .type ∧ troolAnd (.other n) .maybe = .error .type ∧
    troolOr .maybe (.other n) = .error .type ∧ troolOr (.other n) .maybe = .error .type ∧
    troolNot (.other n) = .error .type ∧ troolTruth (.other n) = .error .type ∧
    troolBool truthObj .maybe = .error .notImplemented := by
  simp [troolAnd, maybeAnd, troolOr, maybeOr, orTypeError, troolNot, troolTruth, troolBool]

section
variable [Runtime] [Casing]

/-- **C61 (words).** A text is on, off or neither according to its lower-case form. -/
theorem C61_words (s : PStr) :
    (parseTrool (.text s) = .bool true ↔ Casing.lower s ∈ onWords) ∧
    (parseTrool (.text s) = .bool false ↔ Casing.lower s ∈ offWords) ∧
    (parseTrool (.text s) = .maybe ↔ Casing.lower s ∉ onWords ∧ Casing.lower s ∉ offWords) ∧
    parseTrool (.markup s) = parseTrool (.text s) := by
  have hY : Casing.lower s ∈ troolYes ↔ Casing.lower s ∈ onWords := by
    constructor
    · intro h
      have h' : Casing.lower s = "True".toList ∨ Casing.lower s ∈ onWords := by
        simp only [troolYes, onWords, List.mem_cons, List.not_mem_nil, or_false] at h ⊢
        grind
      rcases h' with h' | h'
      · exfalso
        have := Casing.idem s
        rw [h', Casing.ascii _ (by decide)] at this
        exact absurd this (by decide)
      · exact h'
    · intro h
      simp only [troolYes, onWords, List.mem_cons, List.not_mem_nil, or_false] at h ⊢
      grind
  have hN : Casing.lower s ∈ troolNo ↔ Casing.lower s ∈ offWords := by
    constructor
    · intro h
      have h' : Casing.lower s = "False".toList ∨ Casing.lower s ∈ offWords := by
        simp only [troolNo, offWords, List.mem_cons, List.not_mem_nil, or_false] at h ⊢
        grind
      rcases h' with h' | h'
      · exfalso
        have := Casing.idem s
        rw [h', Casing.ascii _ (by decide)] at this
        exact absurd this (by decide)
      · exact h'
    · intro h
      simp only [troolNo, offWords, List.mem_cons, List.not_mem_nil, or_false] at h ⊢
      grind
  have hdis : Casing.lower s ∈ onWords → Casing.lower s ∉ offWords := by
    have : ∀ x ∈ onWords, x ∉ offWords := by decide
    exact this _
  have e : parseTrool (.text s) = (if Casing.lower s ∈ onWords then .bool true else if Casing.lower s ∈ offWords then .bool false else .maybe) := by
    simp only [parseTrool, HtmlVal.pyStr, hY, hN]
  refine ⟨?_, ?_, ?_, rfl⟩
  all_goals
    rw [e]
    by_cases h1 : Casing.lower s ∈ onWords <;> by_cases h2 : Casing.lower s ∈ offWords <;> simp [h1, h2]
  exact hdis h1 h2

/-- **C61 (case).** Upper and lower case do not matter. -/
theorem C61_case (s s' : PStr) (h : Casing.lower s = Casing.lower s') : parseTrool (.text s) = parseTrool (.text s') := by
  have e : ∀ t, parseTrool (.text t) =
      (fun t => if t ∈ troolYes then HtmlVal.bool true else if t ∈ troolNo then .bool false else .maybe) (Casing.lower t) := fun _ => rfl
  rw [e, e, h]

/-- **C61 (idempotent).** Parsing gives True, False or Maybe, and parsing that again changes nothing. -/
theorem C61_idempotent (v : HtmlVal) :
    (parseTrool v = .bool true ∨ parseTrool v = .bool false ∨ parseTrool v = .maybe) ∧ parseTrool (parseTrool v) = parseTrool v := by
  have h : parseTrool v = .bool true ∨ parseTrool v = .bool false ∨ parseTrool v = .maybe := by
    have hw : ∀ s : PStr, (if s ∈ troolYes then HtmlVal.bool true else if s ∈ troolNo then .bool false else .maybe) = .bool true ∨
        (if s ∈ troolYes then HtmlVal.bool true else if s ∈ troolNo then .bool false else .maybe) = .bool false ∨
        (if s ∈ troolYes then HtmlVal.bool true else if s ∈ troolNo then .bool false else .maybe) = .maybe := by
      intro s
      split
      · simp
      · split <;> simp
    cases v with
    | bool b => cases b <;> simp [parseTrool]
    | maybe => simp [parseTrool]
    | _ => exact hw _
  refine ⟨h, ?_⟩
  rcases h with h | h | h <;> rw [h] <;> rfl

end

section
attribute [local instance] Runtime.ascii asciiCasing
/-- mixed case, and a word that is neither -/
example : parseTrool (.text "yEs".toList) = .bool true ∧ parseTrool (.text "OFF".toList) = .bool false ∧
    parseTrool (.text "auto".toList) = .maybe ∧ parseTrool (.text "y".toList) = .maybe := by decide
example : rank .maybe = some 1 ∧ rank (.bool true) = some 2 := by decide
end

end Flatland
