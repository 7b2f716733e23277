import Verif.Model.RichEdits
import Verif.Spec.Edits
import Verif.Spec.RichValues
/-! What is said about calls on the elements of a form with DateYYYYMMDDs and JoinedStrings in it (C95). -/
namespace Flatland.Spec
open Flatland

mutual
/-- the fields of every Dict and the parts of every date have names of their own -/
def NamedParts : VSchema → Prop
  | .plain s => NamedFields s
  | .joined _ _ => True
  | .date _ _ fs => (∀ f ∈ fs, f.1.name ≠ none) ∧ (fs.map fun f => f.1.name).Nodup
  | .dict _ _ _ fs => (∀ f ∈ fs, f.name ≠ none) ∧ (fs.map VSchema.name).Nodup ∧ NamedPartsAll fs
  | .list _ _ _ m => NamedParts m
  | .array _ _ m => NamedParts m
/-- see `NamedParts` -/
def NamedPartsAll : List VSchema → Prop
  | [] => True
  | f :: fs => NamedParts f ∧ NamedPartsAll fs
end

mutual
/-- `e` is an element of class `s`: a date has a scalar for each part, under the part's name, a JoinedString has scalars as members -/
def IsOf : VSchema → Elem → Prop
  | .plain s, e => Conforms s e
  | .joined h _, .array n ks => n = h.name ∧ ∀ k ∈ ks, ∃ st, k = .scalar none st
  | .date h _ fs, .dict n ks => n = h.name ∧ ∃ sts : List ScalarState, sts.length = fs.length ∧ ks = List.zipWith (fun f st => .scalar f.1.name st) fs sts
  | .dict h mode _ fs, .dict n ks => n = h.name ∧ IsOfAll mode fs ks
  | .list h _ _ m, .list n ks => n = h.name ∧ ∀ k ∈ ks, IsOf m k
  | .array h _ m, .array n ks => n = h.name ∧ ∀ k ∈ ks, IsOf m k
  | _, _ => False
/-- the children are elements of the fields' classes; a field may only be missing when the Dict's mode allows it -/
def IsOfAll (mode : DictMode) : List VSchema → List Elem → Prop
  | [], [] => True
  | f :: fs, k :: ks => ((k = .absent ∧ mayLack mode f) ∨ IsOf f k) ∧ IsOfAll mode fs ks
  | _, _ => False
end

/-- The elements that a call on an element of class `s` puts in are proper elements of the class of the place they are put into. -/
def RichFits (o : RichObjects) {κ : Type} : VSchema → RichOp κ → Prop
  | .plain s, .call op => Fits o.plain s op
  | .joined _ c, .call (.seq op) => ∀ x ∈ seqPuts op, Conforms (joinedMember c) x
  | .date _ _ fs, .call (.map op) => ∀ p ∈ mapPuts op, ∀ f ∈ fs, f.1.name = p.1 → o.plain.isInstance (.scalar f.1 f.2) p.2 = true → Conforms (.scalar f.1 f.2) p.2
  | .list _ _ _ m, .call (.list op) => ∀ x ∈ listPuts op, IsOf m x
  | .array _ _ m, .call (.seq op) => ∀ x ∈ seqPuts op, IsOf m x
  | .dict _ _ _ fs, .call (.map op) => (∀ p ∈ mapPuts op, ∀ f ∈ fs, f.name = p.1 → o.isInstance f p.2 = true → IsOf f p.2) ∧ ∀ eff, op ≠ .setFlat eff
  | _, _ => True

/-- no sort whose comparison raises (see `SortsProperly`) -/
def SortsWell {κ : Type} : RichOp κ → Prop
  | .call op => SortsProperly op
  | .assignDate _ => True

/-- a call that puts proper elements in only -/
def RichFitsAt (o : RichObjects) {κ : Type} (s : VSchema) (c : Pos × RichOp κ) : Prop :=
  SortsWell c.2 ∧ ∀ s', richClassAt s c.1 = some s' → RichFits o s' c.2

/-- the calls made at or below `p`, with their positions as seen from there -/
def richCallsIn {κ : Type} (p : Pos) (cs : List (Pos × RichOp κ)) : List (Pos × RichOp κ) :=
  (cs.filter fun c => p.isPrefixOf c.1).map fun c => (c.1.drop p.length, c.2)

mutual
/-- whatever is a Dict of the class `s` is supplied each of its fields at most once by `v` (a dict has each key once, a list of pairs need not) -/
def NamesOnce : VSchema → PyVal → Prop
  | .dict _ _ _ fs, v => ∀ l, entriesOf v = some l → NamesOnceAll fs l
  | .list _ _ _ m, v => ∀ vs, itemsOf v = some vs → ∀ w ∈ vs, NamesOnce m w
  | .array _ _ m, v => ∀ vs, itemsOf v = some vs → ∀ w ∈ vs, NamesOnce m w
  | _, _ => True
/-- see `NamesOnce` -/
def NamesOnceAll : List VSchema → List Entry → Prop
  | [], _ => True
  | f :: fs, l => l.Pairwise (fun x y => ∀ v w, VSupplies f x v → ¬ VSupplies f y w) ∧ (∀ x ∈ l, ∀ v, VSupplies f x v → NamesOnce f v) ∧ NamesOnceAll fs l
end

mutual
/-- so does every default supply each field at most once -/
def DefaultsNameOnce : VSchema → Prop
  | .dict h mode pol fs => (∀ d, h.dflt = some d → NamesOnce (.dict h mode pol fs) d) ∧ DefaultsNameOnceAll fs
  | .list h prune max m => (∀ d, h.dflt = some d → NamesOnce (.list h prune max m) d) ∧ DefaultsNameOnce m
  | .array h prune m => ∀ d, h.dflt = some d → NamesOnce (.array h prune m) d
  | _ => True
/-- see `DefaultsNameOnce` -/
def DefaultsNameOnceAll : List VSchema → Prop
  | [] => True
  | f :: fs => DefaultsNameOnce f ∧ DefaultsNameOnceAll fs
end

/-- is it a DateYYYYMMDD? -/
def IsDateClass : VSchema → Prop
  | .date _ _ _ => True
  | _ => False

end Flatland.Spec
