import Verif.Spec.Cycle
import Verif.Spec.RichSubmissions
/-!
Specification for C87: what is left of a form with Compounds and JoinedStrings after its page has been sent back, and that sending it back
again and again changes nothing more.
-/
namespace Flatland.Spec
open Flatland

/-- some scalar or JoinedString of the element is among the pairs that get through (`p`: some enclosing List drops blank pairs) -/
def rSurvives (p : Bool) (e : RElem) : Bool := (rTexts e).any fun t => !(p && t == [])

variable [Runtime]

mutual
/-- What comes back of an element (see `broughtBack`): scalars and JoinedStrings are set from their own text, except that blanks inside a pruning
List stay unset; of a Compound its fields come back, as they do in a Dict. -/
def rBroughtBack (p : Bool) : RSchema → RElem → RElem
  | .plain s, .plain e => .plain (broughtBack p s e)
  | .joined .., .joined n c m ms => .joined n c m (if p && joinedText c ms == [] then [] else (joinedSet c [] (.str (joinedText c ms))).1)
  | .compound _ _ fs, .compound n compose ks => .compound n compose (broughtBackAll p .full fs ks)
  | .dict _ mode _ fs, .dict n ks => .dict n (rBroughtBackAll p mode fs ks)
  | .list _ true max m, .list n ks => .list n (((ks.filter (rSurvives true)).take max).map (rBroughtBack true m))
  | .list _ false max m, .list n ks => .list n (((upToLast (rSurvives p) ks).take max).map (rBroughtBack p m))
  | _, e => e
/-- see `rBroughtBack` -/
def rBroughtBackAll (p : Bool) (mode : DictMode) : List RSchema → List RElem → List RElem
  | f :: fs, k :: ks => (if rSurvives p k then rBroughtBack p f k else if rAutoField mode f then rFresh f else .plain .absent) ::
      rBroughtBackAll p mode fs ks
  | _, ks => ks
end

mutual
/-- every scalar outside JoinedStrings satisfies `P`, and every JoinedString `J`, of its settings and text (see `EachScalar`) -/
def REach (P : Bool → ScalarType → ScalarState → Prop) (J : Bool → JoinedCfg → PStr → Prop) (p : Bool) : RSchema → RElem → Prop
  | .plain s, .plain e => EachScalar P p s e
  | .joined _ c _, .joined _ _ _ ms => J p c (joinedText c ms)
  | .compound _ _ fs, .compound _ _ ks => EachScalarAll P p fs ks
  | .dict _ _ _ fs, .dict _ ks => REachAll P J p fs ks
  | .list _ prune _ m, .list _ ks => ∀ k ∈ ks, REach P J (p || prune) m k
  | _, _ => True
/-- see `REach` -/
def REachAll (P : Bool → ScalarType → ScalarState → Prop) (J : Bool → JoinedCfg → PStr → Prop) (p : Bool) : List RSchema → List RElem → Prop
  | f :: fs, k :: ks => REach P J p f k ∧ REachAll P J p fs ks
  | _, _ => True
end

/-- the JoinedString accepts its own text without an exception escaping (or its text is not sent) -/
def JoinedTakes (p : Bool) (c : JoinedCfg) (u : PStr) : Prop := (p && u == []) = true ∨ ∃ b, (joinedSet c [] (.str u)).2 = .ok b

/-- the text of a JoinedString that has been set from a text -/
def joinedAfter (c : JoinedCfg) (u : PStr) : PStr := joinedText c (joinedSet c [] (.str u)).1

/-- the text of a scalar that has been set from a text -/
def textAfter (t : ScalarType) (u : PStr) : PStr := (scalarSet t .fresh (.str u)).1.u

/-- The JoinedString takes its own text, and has the same text afterwards. -/
def JoinedSteady (p : Bool) (c : JoinedCfg) (u : PStr) : Prop := JoinedTakes p c u ∧ ((p && u == []) = true ∨ joinedAfter c u = u)

mutual
/-- all scalar classes of the schema satisfy `P`, all JoinedStrings `J` -/
def RAllTypes (P : ScalarType → Prop) (J : JoinedCfg → Prop) : RSchema → Prop
  | .plain s => AllTypes P s
  | .joined _ c _ => J c
  | .compound _ _ fs => AllTypesIn P fs
  | .dict _ _ _ fs => RAllTypesIn P J fs
  | .list _ _ _ m => RAllTypes P J m
/-- see `RAllTypes` -/
def RAllTypesIn (P : ScalarType → Prop) (J : JoinedCfg → Prop) : List RSchema → Prop
  | [] => True
  | f :: fs => RAllTypes P J f ∧ RAllTypesIn P J fs
end

/-- a class that takes any text and shows the same from the second time on that it is set from what it shows -/
def Settling (t : ScalarType) : Prop :=
  TextSafe t ∧ ∀ u, textAfter t (textAfter t (textAfter t u)) = textAfter t (textAfter t u)

/-- the same for a JoinedString -/
def SettlingJoined (c : JoinedCfg) : Prop :=
  JoinedSafe c ∧ ∀ u, joinedAfter c (joinedAfter c (joinedAfter c u)) = joinedAfter c (joinedAfter c u)

/-- what a new scalar can become by a submission -/
def AsSent (t : ScalarType) (st : ScalarState) : Prop := st = .fresh ∨ ∃ x, st = (scalarSet t .fresh (.str x)).1

mutual
/-- Every Compound class has scalars among its fields, however they are filled from a submission, and shows nothing when they show nothing. -/
def BlankCompounds : RSchema → Prop
  | .compound _ compose fs => ∀ ks, ConformsAll .full fs ks → EachScalarAll (fun _ => AsSent) false fs ks →
      leavesKids 0 ks ≠ [] ∧ ((∀ l ∈ leavesKids 0 ks, l.st.u = []) → compose ks = [])
  | .dict _ _ _ fs => BlankCompoundsAll fs
  | .list _ _ _ m => BlankCompounds m
  | _ => True
/-- see `BlankCompounds` -/
def BlankCompoundsAll : List RSchema → Prop
  | [] => True
  | f :: fs => BlankCompounds f ∧ BlankCompoundsAll fs
end

mutual
/-- The same for the Compounds that are not always there: those in Lists and in fields of SparseDicts that may be missing. -/
def OptionalCompoundsBlank : RSchema → Prop
  | .dict _ mode _ fs => OptionalCompoundsBlankAll mode fs
  | .list _ _ _ m => BlankCompounds m
  | _ => True
/-- see `OptionalCompoundsBlank` -/
def OptionalCompoundsBlankAll (mode : DictMode) : List RSchema → Prop
  | [] => True
  | f :: fs => (if rAutoField mode f then OptionalCompoundsBlank f else BlankCompounds f) ∧ OptionalCompoundsBlankAll mode fs
end

/-- the text of a DateYYYYMMDD of which these are the parts -/
def dateText (ks : List Elem) : PStr := match dateView true (ks.map Elem.state) with
  | .ok r => r.1
  | .error _ => []

/-- the form after its page has been sent back, unchanged, `n` times -/
def rSentBack (sep : PStr) (s : RSchema) : Nat → RElem → Except PyErr RElem
  | 0, e => .ok e
  | n + 1, e => match rFromFlat sep s (rFlatten sep e) with
    | .ok e' => rSentBack sep s n e'
    | .error x => .error x

end Flatland.Spec
