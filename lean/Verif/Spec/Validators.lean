import Verif.Model.Validators
import Verif.Spec.Scalars
/-! What the validators are documented to check. -/
namespace Flatland.Spec
open Flatland

/-- the value as a number -/
def number? : PyVal → Option Int
  | .bool true => some 1
  | .bool false => some 0
  | .int i => some i
  | _ => .none

/-- an earlier day -/
def DayBefore (y m d y' m' d' : Nat) : Prop := y < y' ∨ y = y' ∧ (m < m' ∨ m = m' ∧ d < d')

/-- an earlier time of day -/
def ClockBefore (h m s u h' m' s' u' : Nat) : Prop := h < h' ∨ h = h' ∧ (m < m' ∨ m = m' ∧ (s < s' ∨ s = s' ∧ u < u'))

/-- `a < b`: numbers by size, texts in dictionary order of code points, dates and times chronologically -/
inductive Less : PyVal → PyVal → Prop
  | number {a b i j} : number? a = some i → number? b = some j → i < j → Less a b
  | textPrefix {s c t} : Less (.str s) (.str (s ++ c :: t))
  | text {p x y s t} : x.toNat < y.toNat → Less (.str (p ++ x :: s)) (.str (p ++ y :: t))
  | date {y m d y' m' d'} : DayBefore y m d y' m' d' → Less (.date y m d) (.date y' m' d')
  | time {h m s u h' m' s' u'} : ClockBefore h m s u h' m' s' u' → Less (.time h m s u) (.time h' m' s' u')
  | datetime {y m d h mi s u y' m' d' h' mi' s' u'} :
      DayBefore y m d y' m' d' ∨ (y = y' ∧ m = m' ∧ d = d') ∧ ClockBefore h mi s u h' mi' s' u' →
      Less (.datetime y m d h mi s u) (.datetime y' m' d' h' mi' s' u')

/-- neither is smaller: the same number, text, date or time -/
inductive Same : PyVal → PyVal → Prop
  | number {a b i} : number? a = some i → number? b = some i → Same a b
  | text {s} : Same (.str s) (.str s)
  | date {y m d} : Same (.date y m d) (.date y m d)
  | time {h m s u} : Same (.time h m s u) (.time h m s u)
  | datetime {y m d h mi s u} : Same (.datetime y m d h mi s u) (.datetime y m d h mi s u)

/-- at most -/
def AtMost (a b : PyVal) : Prop := Less a b ∨ Same a b

/-- the two values can be ordered at all -/
def Comparable (a b : PyVal) : Prop := Less a b ∨ Same a b ∨ Less b a

/-- the element is a sequence holding this many members: its value is the list of the members' values -/
def Holds (e : Checked) (n : Nat) : Prop := e.isSequence = true ∧ ∃ xs, e.value = .list xs ∧ xs.length = n

/-- what the validator is documented to require -/
def Meets [Runtime] (e : Checked) : Check → Prop
  | .present => e.u ≠ []
  | .isTrue => ¬ FalseValue e.value
  | .isFalse => FalseValue e.value
  | .valueIn options => ∃ o ∈ options, pyEq e.value o = true
  | .converted => e.value ≠ .none
  | .shorterThan n => (e.u.length : Int) ≤ n
  | .longerThan n => n ≤ (e.u.length : Int)
  | .lengthBetween a b => a ≤ (e.u.length : Int) ∧ (e.u.length : Int) ≤ b
  | .valueLessThan b => Less e.value b
  | .valueAtMost b => AtMost e.value b
  | .valueGreaterThan b => Less b e.value
  | .valueAtLeast b => AtMost b e.value
  | .valueBetween lo hi true => AtMost lo e.value ∧ AtMost e.value hi
  | .valueBetween lo hi false => Less lo e.value ∧ Less e.value hi
  | .hasAtLeast n => ∃ l : Nat, Holds e l ∧ n ≤ l
  | .hasAtMost n => ∃ l : Nat, Holds e l ∧ (l : Int) ≤ n
  | .hasBetween a b => ∃ l : Nat, Holds e l ∧ a ≤ l ∧ (l : Int) ≤ b

/-- when the requirement makes sense: bounds can be compared with the value; members can be counted, with a bound that is not negative -/
def Applies (e : Checked) : Check → Prop
  | .valueLessThan b | .valueAtMost b | .valueGreaterThan b | .valueAtLeast b => Comparable e.value b
  | .valueBetween lo hi _ => Comparable lo e.value ∧ Comparable e.value hi
  | .hasAtLeast n | .hasAtMost n => 0 ≤ n ∧ ∃ l, Holds e l
  | .hasBetween _ _ => ∃ l, Holds e l
  | _ => True

/-- the message documented for a failure -/
def failureKey : Check → String
  | .present => "missing"
  | .isTrue => "false"
  | .isFalse => "true"
  | .valueIn _ => "fail"
  | .converted => "incorrect"
  | .shorterThan _ => "exceeded"
  | .longerThan _ => "short"
  | .lengthBetween .. => "breached"
  | .valueLessThan _ | .valueAtMost _ | .valueGreaterThan _ | .valueAtLeast _ | .hasAtLeast _ | .hasAtMost _ => "failure"
  | .valueBetween _ _ true => "failure_inclusive"
  | .valueBetween _ _ false => "failure_exclusive"
  | .hasBetween a b => if a = b then "exact" else "range"

/-- a label of a domain name: 1 to 63 ASCII letters, digits and hyphens -/
def DomainLabel (l : PStr) : Prop := 1 ≤ l.length ∧ l.length ≤ 63 ∧ ∀ c ∈ l, c ∈ "abcdefghijklmnopqrstuvwxyzABCDEFGHIJKLMNOPQRSTUVWXYZ0123456789-".toList

/-- labels joined with dots, at most 253 characters in all -/
def DomainName (minLabels : Nat) (d : PStr) : Prop :=
  ∃ labels : List PStr, d = pyJoin ['.'] labels ∧ minLabels ≤ labels.length ∧ 1 ≤ labels.length ∧ (∀ l ∈ labels, DomainLabel l) ∧ d.length ≤ 253

/-- a required part: there at all (True), or one of the values listed -/
def RequiredOk : Option PartRule → Option PStr → Prop
  | .none, _ => True
  | some .always, v => v ≠ .none
  | some (.values vs), v => vs = [] ∨ v ∈ vs

/-- a forbidden part: missing or blank (True), or none of the values listed -/
def ForbiddenOk : Option PartRule → Option PStr → Prop
  | .none, _ => True
  | some .always, v => v = .none ∨ v = some []
  | some (.values vs), v => v ∉ vs

end Flatland.Spec
