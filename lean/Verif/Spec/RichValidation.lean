import Verif.Model.RichValidation
import Verif.Spec.RichNodes
import Verif.Spec.Validate
import Verif.Spec.Validators
import Verif.Spec.Messages
/-! What it means for the elements of a tree with Compounds and JoinedStrings to obey their validators (C93). -/
namespace Flatland.Spec
open Flatland
variable [Runtime]

/-- the validator accepts the element at the position -/
def Accepts (e : NElem) (p : Pos) (r : RichRule) : Prop := r.decide e p = .ok .none

/-- the validator rejects it, with this message (`none`: no message, or an empty one) -/
def Rejects (e : NElem) (p : Pos) (r : RichRule) (text : Option PStr) : Prop :=
  ∃ key m, r.decide e p = .ok (some key) ∧ (r.noter e p).attr key = .ok m ∧
    match text with
    | .none => Silent m
    | some t => ¬ Silent m ∧ expandMessage (r.noter e p).env m = .ok t

/-- no validator of the list raises -/
def Decides (e : NElem) (p : Pos) (rs : List RichRule) : Prop := ∀ r ∈ rs, Accepts e p r ∨ ∃ text, Rejects e p r text

mutual
/-- the element at the position is blank: a Compound all of whose fields are; a String without text and value (or with a false one), another scalar without
text and with the value None, a List, Array or JoinedString without members, a SparseDict without fields -/
def NothingIn (rules : Pos → RichField) (p : Pos) : NElem → Prop
  | .compound _ _ _ ks => NothingInAll rules p 0 ks
  | .scalar _ st => st.u = [] ∧ (if (rules p).textual then FalseValue st.value else st.value = .none)
  | .dict _ ks => (rules p).sparse = true ∧ ∀ k ∈ ks, k = .absent
  | .list _ ks | .array _ ks | .joined _ _ ks => ks = []
  | .absent => True
/-- so are all these, the first of them being child number `i` of the position -/
def NothingInAll (rules : Pos → RichField) (p : Pos) (i : Nat) : List NElem → Prop
  | [] => True
  | k :: ks => NothingIn rules (p ++ [i]) k ∧ NothingInAll rules p (i + 1) ks
end

/-- everything but a scalar is a container -/
def containerN : NElem → Bool
  | .scalar .. => false
  | _ => true

/-- the element needs no validation -/
def LetOff (rules : Pos → RichField) (p : Pos) (k : NElem) : Prop := (rules p).optional = true ∧ NothingIn rules p k

/-- what makes an element valid by itself: it is blank and optional; or all its validators pass – or, if it has none, it is not blank – and so do the
descent validators of a container -/
def Complies (e : NElem) (rules : Pos → RichField) (p : Pos) (k : NElem) : Prop :=
  LetOff rules p k ∨
    ((∀ r ∈ (rules p).validators, Accepts e p r) ∧ ((rules p).validators = [] → ¬ NothingIn rules p k) ∧
      (containerN k = true → ∀ r ∈ (rules p).descent, Accepts e p r))

/-- the message of the first validator of the list that does not pass -/
def FirstComplaint (e : NElem) (p : Pos) (rs : List RichRule) (text : PStr) : Prop :=
  ∃ pre r post, rs = pre ++ r :: post ∧ (∀ x ∈ pre, Accepts e p x) ∧ Rejects e p r (some text)

/-- the messages an element gets -/
def Complaint (e : NElem) (rules : Pos → RichField) (p : Pos) (k : NElem) (text : PStr) : Prop :=
  ¬ LetOff rules p k ∧ (FirstComplaint e p (rules p).validators text ∨ (containerN k = true ∧ FirstComplaint e p (rules p).descent text))

/-- A compound date whose parts are numbers without validators of their own, as optional as it is. -/
def DateAt (e : NElem) (rules : Pos → RichField) (p : Pos) (v : PyVal) (parts : List ScalarState) : Prop :=
  (∃ n u n₁ n₂ n₃ a b c, parts = [a, b, c] ∧ At e p (.compound n u v [.scalar n₁ a, .scalar n₂ b, .scalar n₃ c])) ∧ (rules p).descent = [] ∧
    ∀ i < 3, (rules (p ++ [i])).validators = [] ∧ (rules (p ++ [i])).optional = (rules p).optional ∧ (rules (p ++ [i])).textual = false

/-- neither text nor value -/
def Untouched (a : ScalarState) : Prop := a.u = [] ∧ a.value = .none

/-- `Converted()`: the value of a Compound is not None (what it says otherwise is up to `noter`) -/
def convertedRule (noter : NElem → Pos → Noter) : RichRule where
  decide e p := match nElemAt e p with
    | some (.compound _ _ v _) => .ok (if isNone v then some "incorrect".toList else .none)
    | _ => .ok .none
  noter := noter

end Flatland.Spec
