import Verif.Model.Tidying
import Verif.Spec.FormValidation
/-! What validation with validators that change their elements does to a form: each element is judged by its own validators, one after
the other, in the form as it is at that time. -/
namespace Flatland.Spec
open Flatland

/-- the data of the scalar at a position -/
def stateAt (e : Elem) (p : Pos) : ScalarState := ((elemAt e p).getD .absent).state

/-- the element at `q` is reached before the one at `p`: it is nearer to the root, or on the same level and further to the left -/
def Earlier (q p : Pos) : Prop := q.length < p.length ∨ (q.length = p.length ∧ q < p)

instance (q p : Pos) : Decidable (Earlier q p) := inferInstanceAs (Decidable (_ ∨ _))

/-- the form in between: the elements before `p` are as in `after`, the others still as in `before` -/
def seenFrom (before after : Elem) (p : Pos) : Elem :=
  withStates before fun q => if Earlier q p then stateAt after q else stateAt before q

/-- the form with another state of the scalar at a position, if there is one (`none`: unchanged) -/
def changedAt (t : Elem) (p : Pos) : Option ScalarState → Elem
  | .none => t
  | some s => withStates t fun q => if q = p then s else stateAt t q

section
variable [Runtime]

/-- the text of a message (`none`: there is no message, or an empty one) -/
def MessageIs (n : Noter) (key : PStr) : Option PStr → Prop
  | .none => ∃ m, n.attr key = .ok m ∧ Silent m
  | some text => ∃ m, n.attr key = .ok m ∧ ¬ Silent m ∧ expandMessage n.env m = .ok text

/-- Validators, one after the other, on the element at `p` of the form `t`: the form becomes `t'`; `ok` – all of them passed; else the first
that did not pass is the last that ran, with this message, if any. -/
inductive InTurn (p : Pos) : Elem → List ActRule → Elem → Bool → Option PStr → Prop
  | passed {t} : InTurn p t [] t true .none
  | next {t r rs s t' ok text} : r.act t p = (s, .ok .yes) → InTurn p (changedAt t p s) rs t' ok text → InTurn p t (r :: rs) t' ok text
  | refused {t r rs s} : r.act t p = (s, .ok .no) → InTurn p t (r :: rs) (changedAt t p s) false .none
  | noted {t r rs s key text} : r.act t p = (s, .ok (.note key)) → MessageIs (r.noter (changedAt t p s) p) key text →
      InTurn p t (r :: rs) (changedAt t p s) false text

/-- How an element is judged by the validators `rs`: blank and optional ones pass; without validators those that are not blank pass. -/
inductive JudgedBy (c : ActRules) (rs : List ActRule) (t : Elem) (p : Pos) : Elem → Bool → Option PStr → Prop
  | excused {k} : elemAt t p = some k → Excused c.field k → JudgedBy c rs t p t true .none
  | given {k ok} : elemAt t p = some k → ¬ Excused c.field k → rs = [] → (ok = true ↔ ¬ IsBlank c.field k) → JudgedBy c rs t p t ok .none
  | inTurn {k t' ok text} : elemAt t p = some k → ¬ Excused c.field k → rs ≠ [] → InTurn p t rs t' ok text → JudgedBy c rs t p t' ok text

/-- What happens to one element of the form, `before` being the whole form before the validation and `after` afterwards.  A scalar is judged
by its validators in the form as it is when its turn comes, which is with the elements before it changed already; that is where its new state comes from.  A
container is judged by its descent validators, if any, at that time, and by its validators in the form `after`. -/
def Treated (rules : Pos → ActRules) (before after : Elem) (p : Pos) (k : Elem) (ok : Bool) (down up : Option PStr) : Prop :=
  if containerElem k then
    ∃ okDown okUp, ok = (okDown && okUp) ∧ JudgedBy (rules p) (rules p).validators after p after okUp up ∧
      if (rules p).descent = [] then okDown = true ∧ down = .none
      else ∃ t, JudgedBy (rules p) (rules p).descent (seenFrom before after p) p t okDown down
  else up = .none ∧ ∃ t, JudgedBy (rules p) (rules p).validators (seenFrom before after p) p t ok down ∧ stateAt after p = stateAt t p

end

/-- the messages with one more, if it is not there yet -/
def plusMessage (ms : List PStr) : Option PStr → List PStr
  | .none => ms
  | some t => if t ∈ ms then ms else ms ++ [t]

/-- the form with other data in its scalars, and nothing else changed -/
def OtherData (a b : Elem) : Prop := ∃ d, b = withStates a d

section
variable [Runtime]

/-- The validators answer, and messages can be built, as long as the form is one that `Inv` holds of; and it remains one. -/
def AnswersIn (Inv : Elem → Prop) (e : Elem) (p : Pos) (rs : List ActRule) : Prop :=
  ∀ t, OtherData e t → Inv t → ∀ r ∈ rs, ∃ s a, r.act t p = (s, .ok a) ∧ Inv (changedAt t p s) ∧
    ∀ key, a = .note key → ∃ text, MessageIs (r.noter (changedAt t p s) p) key text

end

/-- validators that change nothing, as such that might -/
def actingRules (rules : Pos → FieldRules) (p : Pos) : ActRules :=
  { optional := (rules p).optional, validators := (rules p).validators.map FormRule.acting, descent := (rules p).descent.map FormRule.acting,
    textual := (rules p).textual, sparse := (rules p).sparse }

/-- on a scalar, the validator looks at its data only: it makes them those that `f` gives, with the answer `f` gives -/
def WorksOn (r : ActRule) (f : ScalarState → ScalarState × Except PyErr Answer) : Prop :=
  ∀ t p n st, elemAt t p = some (.scalar n st) → (r.act t p).1.getD st = (f st).1 ∧ (r.act t p).2 = (f st).2

/-- the same for a list of validators -/
inductive WorkOn : List ActRule → List (ScalarState → ScalarState × Except PyErr Answer) → Prop
  | nil : WorkOn [] []
  | cons {r f rs fs} : WorksOn r f → WorkOn rs fs → WorkOn (r :: rs) (f :: fs)

/-- such validators, one after the other -/
inductive OwnTurn : List (ScalarState → ScalarState × Except PyErr Answer) → ScalarState → ScalarState → Bool → Prop
  | passed {st} : OwnTurn [] st st true
  | next {f fs st st' end' ok} : f st = (st', .ok .yes) → OwnTurn fs st' end' ok → OwnTurn (f :: fs) st end' ok
  | failed {f fs st st' a} : f st = (st', .ok a) → a ≠ .yes → OwnTurn (f :: fs) st st' false

section
variable [Runtime]

/-- the data of a scalar are blank: no text; and no value, or, for a String, a false one -/
def BlankData (textual : Bool) (st : ScalarState) : Prop := st.u = [] ∧ (if textual then FalseValue st.value else st.value = .none)

/-- what becomes of a scalar with such validators, and if it is valid -/
inductive OwnJudged (c : ActRules) (fs : List (ScalarState → ScalarState × Except PyErr Answer)) (st : ScalarState) : ScalarState → Bool → Prop
  | excused : c.optional = true → BlankData c.textual st → OwnJudged c fs st st true
  | given {ok} : ¬ (c.optional = true ∧ BlankData c.textual st) → fs = [] → (ok = true ↔ ¬ BlankData c.textual st) → OwnJudged c fs st st ok
  | inTurn {st' ok} : ¬ (c.optional = true ∧ BlankData c.textual st) → fs ≠ [] → OwnTurn fs st st' ok → OwnJudged c fs st st' ok

/-- validating what the validators have made of a scalar changes it no more, and gives the same result -/
def Settles (c : ActRules) (fs : List (ScalarState → ScalarState × Except PyErr Answer)) : Prop :=
  ∀ st st' ok, OwnJudged c fs st st' ok → OwnJudged c fs st' st' ok

end

end Flatland.Spec
