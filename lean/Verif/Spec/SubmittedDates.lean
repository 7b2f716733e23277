import Verif.Model.RichNodesOf
import Verif.Spec.RichValidation
import Verif.Spec.RichSubmissions
import Verif.Spec.RichCycle
import Verif.Spec.Compounds
/-! When a submitted form with dates and joined strings is valid (C94). -/
namespace Flatland.Spec
open Flatland
variable [Runtime]

/-- Forms of scalars, JoinedStrings and DateYYYYMMDDs in Dicts, at any depth; all but the form itself are named. -/
inductive DateForm : RSchema → Prop
  | plain {s} : PlainForm s → DateForm (.plain s)
  | joined {h c m} : h.name ≠ none → DateForm (.joined h c m)
  | date {h hy hm hd wy wm wd} : h.name ≠ none → hy.name ≠ none → hm.name ≠ none → hd.name ≠ none →
      DateForm (.compound h dateText [.scalar hy (integerType true wy), .scalar hm (integerType true wm), .scalar hd (integerType true wd)])
  | dict {h po fs} : (∀ f ∈ fs, f.name ≠ none) → (∀ f ∈ fs, DateForm f) → DateForm (.dict h .full po fs)

/-- the classes of the parts of a date: attributes, and the number of digits to show -/
structure PartClass where
  name : PStr
  hdr : Hdr
  width : Nat

/-- going down through Dicts one reaches, at the position, a DateYYYYMMDD with these parts, and the key is made of the names on the way, joined -/
inductive DateOf (sep : PStr) : RSchema → Pos → PStr → PartClass → PartClass → PartClass → Prop
  | here {h n} {y m d : PartClass} : h.name = some n → y.hdr.name = some y.name → m.hdr.name = some m.name → d.hdr.name = some d.name →
      DateOf sep (.compound h dateText [.scalar y.hdr (integerType true y.width), .scalar m.hdr (integerType true m.width),
        .scalar d.hdr (integerType true d.width)]) [] n y m d
  | unnamed {h mode po fs} {i : Nat} {f p key y m d} : h.name = none → fs[i]? = some f → f.name ≠ none → DateOf sep f p key y m d →
      DateOf sep (.dict h mode po fs) (i :: p) key y m d
  | named {h mode po fs} {i : Nat} {f p key y m d n} : h.name = some n → fs[i]? = some f → f.name ≠ none → DateOf sep f p key y m d →
      DateOf sep (.dict h mode po fs) (i :: p) (n ++ sep ++ key) y m d

/-- the value of a member -/
def memberValue : NElem → PyVal
  | .scalar _ st => st.value
  | _ => .none

/-- `.value` of an element that has one -/
def valueN : NElem → PyVal
  | .scalar _ st => st.value
  | .compound _ _ v _ => v
  | .joined _ t _ => .str t
  | .array _ ks => .list (ks.map memberValue)
  | _ => .none

/-- `.u` of an element that has one -/
def textN : NElem → PStr
  | .scalar _ st => st.u
  | .compound _ u _ _ => u
  | .joined _ t _ => t
  | _ => []

/-- a validator that looks at the value and text of its element only -/
def ownRule (test : PyVal → PStr → Bool) (noter : NElem → Pos → Noter) : RichRule where
  decide e p := match nElemAt e p with
    | some k => .ok (if test (valueN k) (textN k) then .none else some "incorrect".toList)
    | none => .ok .none
  noter := noter

/-- when such an element is valid: it is optional and blank, or it passes the tests, or there are none and it is not blank -/
def FineField (optional : Bool) (blank : Prop) (tests : List (PyVal → PStr → Bool)) (v : PyVal) (u : PStr) : Prop :=
  (optional = true ∧ blank) ∨ ((∀ t ∈ tests, t v u = true) ∧ (tests = [] → ¬ blank))

/-- a scalar of the given text and value is blank -/
def BlankField (f : RichField) (v : PyVal) (u : PStr) : Prop := u = [] ∧ if f.textual then FalseValue v else v = .none

/-- a scalar is valid -/
def FineScalar (f : RichField) (tests : List (PyVal → PStr → Bool)) (st : ScalarState) : Prop :=
  FineField f.optional (BlankField f st.value st.u) tests st.value st.u

/-- the members a JoinedString has after a submission -/
def membersAfter (c : JoinedCfg) : Option PStr → List ScalarState
  | none => []
  | some v => (joinedSet c [] (.str v)).1

/-- a part of a date after a submission; `key` is that of the date -/
def partAfter (sep key : PStr) (ps : List (PStr × PStr)) (x : PartClass) : ScalarState :=
  afterSubmission (integerType true x.width) .fresh (submitted (key ++ sep ++ x.name) ps)

/-- the value and text of a date with these parts: the date they make, or None and nothing -/
def DateShows (a b c : ScalarState) (v : PyVal) (u : PStr) : Prop :=
  (∃ y m d : Nat, RealDate y m d ∧ a.value = .int y ∧ b.value = .int m ∧ c.value = .int d ∧ v = .date y m d ∧ u = fmtDate y m d) ∨
    ((¬ ∃ y m d : Nat, RealDate y m d ∧ a.value = .int y ∧ b.value = .int m ∧ c.value = .int d) ∧ v = .none ∧ u = [])

/-- a field is valid: a scalar passes its tests; so does a JoinedString, with its text, and each of its members -/
def FineLeaf (rules : Pos → RichField) (tests : Pos → List (PyVal → PStr → Bool)) (p : Pos) (v : Option PStr) : Leaf → Prop
  | .scalar t => FineScalar (rules p) (tests p) (afterSubmission t .fresh v)
  | .joined c _ =>
    (let text := pyJoin c.separator ((membersAfter c v).map ScalarState.u)
     FineField (rules p).optional (membersAfter c v = []) (tests p) (.str text) text) ∧
    ∀ (j : Nat) st, (membersAfter c v)[j]? = some st → FineScalar (rules (p ++ [j])) (tests (p ++ [j])) st

/-- a date is valid whose parts are in these states -/
def FineDate (rules : Pos → RichField) (tests : Pos → List (PyVal → PStr → Bool)) (p : Pos) (a b c : ScalarState) : Prop :=
  ∃ v u, DateShows a b c v u ∧ FineField (rules p).optional
    (BlankField (rules (p ++ [0])) a.value a.u ∧ BlankField (rules (p ++ [1])) b.value b.u ∧ BlankField (rules (p ++ [2])) c.value c.u) (tests p) v u

end Flatland.Spec
