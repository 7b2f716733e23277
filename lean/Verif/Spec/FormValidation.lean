import Verif.Model.FormValidation
import Verif.Spec.Validate
import Verif.Spec.Validators
import Verif.Spec.Messages
/-! What it means for the elements of a tree to obey their validators. -/
namespace Flatland.Spec
open Flatland

variable [Runtime]

/-- the validator accepts the element at the position -/
def Passes (e : Elem) (p : Pos) (r : FormRule) : Prop := r.decide e p = .ok .none

/-- the validator rejects the element; the message comes to this text (`none`: it has no message, or an empty one) -/
def FailsWith (e : Elem) (p : Pos) (r : FormRule) (text : Option PStr) : Prop :=
  ∃ key m, r.decide e p = .ok (some key) ∧ (r.noter e p).attr key = .ok m ∧
    match text with
    | .none => Silent m
    | some t => ¬ Silent m ∧ expandMessage (r.noter e p).env m = .ok t

/-- the element is blank: a String without text and value (or with a false one), another scalar without text and with the value None, a
sequence without members, a SparseDict without fields -/
def IsBlank (c : FieldRules) : Elem → Prop
  | .scalar _ st => st.u = [] ∧ (if c.textual then FalseValue st.value else st.value = .none)
  | .dict _ ks => c.sparse = true ∧ ∀ k ∈ ks, k = .absent
  | .list _ ks | .array _ ks => ks = []
  | .absent => True

/-- the element needs no validation -/
def Excused (c : FieldRules) (k : Elem) : Prop := c.optional = true ∧ IsBlank c k

/-- everything but a scalar is a container -/
def containerElem : Elem → Bool
  | .scalar .. => false
  | _ => true

/-- what makes an element valid by itself: it is blank and optional; or all its validators pass – or, if it has none, it is not blank –
and so do the descent validators of a container -/
def Obeys (e : Elem) (rules : Pos → FieldRules) (p : Pos) (k : Elem) : Prop :=
  Excused (rules p) k ∨
    ((∀ r ∈ (rules p).validators, Passes e p r) ∧ ((rules p).validators = [] → ¬ IsBlank (rules p) k) ∧
      (containerElem k = true → ∀ r ∈ (rules p).descent, Passes e p r))

/-- the message of the first validator of the list that does not pass -/
def FirstMessage (e : Elem) (p : Pos) (rs : List FormRule) (text : PStr) : Prop :=
  ∃ pre r post, rs = pre ++ r :: post ∧ (∀ x ∈ pre, Passes e p x) ∧ FailsWith e p r (some text)

/-- the messages an element gets: of the first of its validators that does not pass, and of the first descent validator of a container
that does not pass -/
def Reported (e : Elem) (rules : Pos → FieldRules) (p : Pos) (k : Elem) (text : PStr) : Prop :=
  ¬ Excused (rules p) k ∧
    (FirstMessage e p (rules p).validators text ∨ (containerElem k = true ∧ FirstMessage e p (rules p).descent text))

/-- no validator raises: each passes or fails with a message that can be built -/
def Answers (e : Elem) (p : Pos) (rs : List FormRule) : Prop := ∀ r ∈ rs, Passes e p r ∨ ∃ text, FailsWith e p r text

/-- what the validators of validation/scalars.py and containers.py see of an element -/
def checked (repr : PStr → PStr) (k : Elem) : Checked :=
  ⟨elemValue k, elemU repr k, match k with | .list .. | .array .. => true | _ => false⟩

end Flatland.Spec
