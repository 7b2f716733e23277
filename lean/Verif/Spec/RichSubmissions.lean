import Verif.Spec.RichTree
import Verif.Spec.Submissions
import Verif.Spec.Order
import Verif.Spec.Cycle
/-!
Specifications for submissions to forms with Compounds and JoinedStrings (C86): which schemas no submission makes raise, which keys a field answers to, and
what becomes of it.
-/
namespace Flatland.Spec
open Flatland

/-- the element at a position below an element -/
def rAt : RElem → Pos → Option RElem
  | .plain e, p => (elemAt e p).map .plain
  | e, [] => some e
  | .compound n _ ks, i :: p => (elemAt (.dict n ks) (i :: p)).map .plain
  | .dict _ ks, i :: p | .list _ ks, i :: p => match ks[i]? with
    | some k => rAt k p
    | none => none
  | .joined .., _ :: _ => none

/-- what a field is: a scalar, or a JoinedString with its settings and the name of its member class -/
inductive Leaf
  | scalar (t : ScalarType)
  | joined (c : JoinedCfg) (member : Option PStr)

/-- `RFieldOf sep s p key h l`: going down through Dicts and Compounds one reaches, at position `p`, the field with the given attributes, and `key` is
made of the names on the way, joined by the separator. -/
inductive RFieldOf (sep : PStr) : RSchema → Pos → PStr → Hdr → Leaf → Prop
  | plain {s p key h t} : FieldOf sep s p key h t → RFieldOf sep (.plain s) p key h (.scalar t)
  | compound {hc co fs p key h t} : FieldOf sep (.dict hc .full .subset fs) p key h t → RFieldOf sep (.compound hc co fs) p key h (.scalar t)
  | joined {h c m n} : h.name = some n → RFieldOf sep (.joined h c m) [] n h (.joined c m)
  | unnamed {h mode po fs} {i : Nat} {f p key hd l} : h.name = none → fs[i]? = some f → f.name ≠ none → RFieldOf sep f p key hd l →
      RFieldOf sep (.dict h mode po fs) (i :: p) key hd l
  | named {h mode po fs} {i : Nat} {f p key hd l n} : h.name = some n → fs[i]? = some f → f.name ≠ none → RFieldOf sep f p key hd l →
      RFieldOf sep (.dict h mode po fs) (i :: p) (n ++ sep ++ key) hd l

/-- an Array whose members have a name -/
def RNamedMembers : RSchema → Prop
  | .plain s => NamedMembers s
  | _ => False

mutual
/-- no List of the element has more members than its class allows to be submitted -/
def RWithinMax : RSchema → RElem → Prop
  | .plain s, .plain e => WithinMax s e
  | .compound _ _ fs, .compound _ _ ks => WithinMaxAll fs ks
  | .dict _ _ _ fs, .dict _ ks => RWithinMaxAll fs ks
  | .list _ _ max m, .list _ ks => ks.length ≤ max ∧ ∀ k ∈ ks, RWithinMax m k
  | _, _ => True
/-- see `RWithinMax` -/
def RWithinMaxAll : List RSchema → List RElem → Prop
  | f :: fs, k :: ks => RWithinMax f k ∧ RWithinMaxAll fs ks
  | _, _ => True
end

/-- members that can be addressed by a bare index -/
def RBareMember : RSchema → Prop
  | .plain s => BareMember s
  | .joined .. => True
  | _ => False

mutual
/-- Schemas on which no submission makes `set_flat` raise (see `NeverRaises`): JoinedStrings do no harm, fields of Compounds are like those of Dicts, and
a List of Compounds is as bad as one of Dicts. -/
def RNeverRaises : RSchema → Prop
  | .plain s => NeverRaises s
  | .joined .. => True
  | .compound _ _ fs => NeverRaisesAll fs
  | .dict _ _ _ fs => RNeverRaisesAll fs
  | .list _ _ max m => max = 0 ∨ RBareMember m
/-- see `RNeverRaises` -/
def RNeverRaisesAll : List RSchema → Prop
  | [] => True
  | f :: fs => f.name ≠ none ∧ RNeverRaises f ∧ RNeverRaisesAll fs
end

section
variable [Runtime]

/-- a JoinedString that takes any text without an exception escaping -/
def JoinedSafe (c : JoinedCfg) : Prop := ∀ x, ∃ ok, (joinedSet c [] (.str x)).2 = .ok ok

mutual
/-- Scalars and JoinedStrings take any text without raising, and every Dict and Compound declares a field (see `Declared`). -/
def RDeclared : RSchema → Prop
  | .plain s => Declared s
  | .joined _ c _ => JoinedSafe c
  | .compound _ _ fs => fs ≠ [] ∧ DeclaredAll fs
  | .dict _ _ _ fs => fs ≠ [] ∧ RDeclaredAll fs
  | .list _ _ _ m => RDeclared m
/-- see `RDeclared` -/
def RDeclaredAll : List RSchema → Prop
  | [] => True
  | f :: fs => RDeclared f ∧ RDeclaredAll fs
end

mutual
/-- fields are named, scalars and JoinedStrings take any text without raising, and a single key addresses the members of each Array (see `OneKey`) -/
def ROneKey : RSchema → Prop
  | .plain s => OneKey s
  | .joined _ c _ => JoinedSafe c
  | .compound _ _ fs => OneKeyAll fs
  | .dict _ _ _ fs => ROneKeyAll fs
  | .list _ _ _ m => ROneKey m
/-- see `ROneKey` -/
def ROneKeyAll : List RSchema → Prop
  | [] => True
  | f :: fs => f.name ≠ none ∧ ROneKey f ∧ ROneKeyAll fs
end

/-- what a submission makes of a field: a scalar, or a JoinedString, is set from the value submitted for it; nothing submitted, nothing changed -/
def FieldBecomes (h : Hdr) : Leaf → RElem → Option PStr → RElem → Prop
  | .scalar t, before, v, after => ∃ n st st', before = .plain (.scalar n st) ∧ after = .plain (.scalar h.name st') ∧
      st'.value = (afterSubmission t st v).value ∧ st'.u = (afterSubmission t st v).u
  | .joined c m, before, none, after => ∃ ms, before = .joined h.name c m ms ∧ after = before
  | .joined c m, before, some v, after => (∃ ms, before = .joined h.name c m ms) ∧ after = .joined h.name c m (joinedSet c [] (.str v)).1

end

end Flatland.Spec
