import Verif.Model.Edits
import Verif.Spec.Tree
import Verif.Spec.Values
import Verif.Spec.Lists
/-! What is said about calls on the elements of a tree (C82). -/
namespace Flatland.Spec
open Flatland

/-- the element handed over, if it is one -/
def argElem {V E : Type} : Arg V E → List E
  | .val _ => []
  | .el e => [e]

/-- the elements among the items of an iterable -/
def iterElems {V E : Type} (it : Iter V E) : List E := it.items.flatMap argElem

/-- elements that an operation puts into a List as members -/
def listPuts {V E κ : Type} : ListOp V E κ → List E
  | .append a | .insert _ a => argElem a
  | .extend it | .setSlice _ _ _ it => iterElems it
  | .fill es => es
  | _ => []

/-- elements that an operation puts into an Array as members -/
def seqPuts {V E κ : Type} : SeqOp V E κ → List E
  | .append a | .insert _ a | .setItem _ a => argElem a
  | .extend it | .setSlice _ _ _ it => iterElems it
  | _ => []

/-- elements that an operation may put into a Dict, with the key -/
def mapPuts {K V E : Type} : MapOp K V E → List (K × E)
  | .setItem k a => (argElem a).map (k, ·)
  | .update (.seq items _) kwargs => (items ++ kwargs).flatMap fun p => (argElem p.2).map (p.1, ·)
  | _ => []

/-- Python's `sort` leaves the same members behind when a comparison raises; in a List, whose numbers are not put right then (C24), we
leave such a sort out -/
def SortsProperly {κ : Type} : EditOp κ → Prop
  | .list op => Compares op
  | .seq (.sort (.compareFails _ left)) => ∀ st, (left st).Perm st
  | _ => True

/-- The elements that a call on an element of class `s` puts in are proper elements of the class of the place they are put into.
`setFlat` of Model/Mappings.lean is not used here, `fill` has it. -/
def Fits (o : Objects) {κ : Type} : Schema → EditOp κ → Prop
  | .list _ _ _ m, .list op => ∀ x ∈ listPuts op, Conforms m x
  | .array _ _ m, .seq op => ∀ x ∈ seqPuts op, Conforms m x
  | .dict _ _ _ fs, .map op => (∀ p ∈ mapPuts op, ∀ f ∈ fs, f.name = p.1 → o.isInstance f p.2 = true → Conforms f p.2) ∧
      ∀ eff, op ≠ .setFlat eff
  | _, _ => True

/-- the class of the element at a position -/
def classAt : Schema → Pos → Option Schema
  | s, [] => some s
  | .dict _ _ _ fs, i :: p => match fs[i]? with
    | some f => classAt f p
    | none => none
  | .list _ _ _ m, _ :: p | .array _ _ m, _ :: p => classAt m p
  | .scalar _ _, _ :: _ => none

/-- a call that puts proper elements in only -/
def FitsAt (o : Objects) {κ : Type} (s : Schema) (c : List Nat × EditOp κ) : Prop :=
  SortsProperly c.2 ∧ ∀ s', classAt s c.1 = some s' → Fits o s' c.2

/-- neither is on the way to the other -/
def Apart (p q : Pos) : Prop := ¬ p <+: q ∧ ¬ q <+: p

/-- of the same kind, with the same name and as many children -/
def SameFrame : Elem → Elem → Prop
  | .scalar n _, .scalar m _ => n = m
  | .dict n ks, .dict m ls => n = m ∧ ks.length = ls.length
  | .list n ks, .list m ls => n = m ∧ ks.length = ls.length
  | .array n ks, .array m ls => n = m ∧ ks.length = ls.length
  | .absent, .absent => True
  | _, _ => False

/-- The positions of all scalars of a tree, in the order of `flatten` (C14). -/
def ScalarsInOrder (e : Elem) (ps : List Pos) : Prop :=
  ps.Nodup ∧ (∀ q, q ∈ ps ↔ ∃ n st, elemAt e q = some (.scalar n st)) ∧
    ps.Pairwise fun a b => a.length < b.length ∨ (a.length = b.length ∧ a < b)

/-- the pair of `flatten` for the scalar at a position (C14) -/
def pairAt (sep : PStr) (e : Elem) (q : Pos) : PStr × PStr := (flatName sep (namesAt e q), textAt e q)

/-- not at or below `p` -/
def outside (p : Pos) (q : Pos) : Bool := !(p.isPrefixOf q)

/-- the calls made at or below `p`, with their positions as seen from there -/
def callsIn {κ : Type} (p : Pos) (cs : List (List Nat × EditOp κ)) : List (List Nat × EditOp κ) :=
  (cs.filter fun c => p.isPrefixOf c.1).map fun c => (c.1.drop p.length, c.2)

/-- operations on the root of a tree -/
def onRoot {κ : Type} (ops : List (ListOp PyVal Elem κ)) : List (List Nat × EditOp κ) := ops.map fun op => ([], .list op)

/-- the operation of a List of the same name; `array[i] = x` puts another member there while `list[i] = x` sets the one that is there -/
def listOpOf {V E κ : Type} : SeqOp V E κ → Option (ListOp V E κ)
  | .append a => some (.append a)
  | .extend it => some (.extend it)
  | .insert i a => some (.insert i a)
  | .setItem _ _ => none
  | .setSlice a b s it => some (.setSlice a b s it)
  | .remove a => some (.remove a)
  | .delItem i => some (.delItem i)
  | .delSlice a b s => some (.delSlice a b s)
  | .pop i => some (.pop i)
  | .reverse => some .reverse
  | .sort (.done lt key rev) => some (.sort (.done lt (fun s => key s.elem) rev))
  | .sort (.keyFails er) => some (.sort (.keyFails er))
  | .sort (.compareFails _ _) => none

/-- a key of a dict as the key of a field; other hashable objects are no field's name, like `none` here, unhashable ones are a TypeError -/
def fieldKey : PyVal → Except PyErr (Option PStr)
  | .str k => .ok (some k)
  | .list _ => .error .type
  | .dict _ => .error .type
  | _ => .ok none

/-- the pairs up to the first that is none or has no usable key, and how that ends -/
def pairItems : List (Except PyErr (PyVal × PyVal)) → List (Option PStr × Arg PyVal Elem) × Option PyErr
  | [] => ([], none)
  | .error er :: _ => ([], some er)
  | .ok (k, v) :: rest => match fieldKey k with
    | .error er => ([], some er)
    | .ok k' => ((k', .val v) :: (pairItems rest).1, (pairItems rest).2)

/-- what `Dict.set` gets from a value -/
def pairsOf (v : PyVal) : Pairs (Option PStr) PyVal Elem :=
  match valuePairs v with
  | .error er => .refused er
  | .ok items => .seq (pairItems items).1 (pairItems items).2

/-- what `Sequence.set` gets from a value -/
def iterOf (v : PyVal) : Option (Iter PyVal Elem) :=
  match pyIter v with
  | .error _ => none
  | .ok vs => some ⟨vs.map .val, none⟩

/-- what the pairs that concern a Dict do to a field: nothing if none is for it, else they are given to the child -/
def flatEffect [Runtime] (sep : PStr) (fs : List Schema) (ps : List FPair) (k : Option PStr) : FlatEffect Elem :=
  match fs.find? fun f => f.name == k with
  | none => .skip
  | some f => match accumField f.name ps with
    | .error er => .raises er
    | .ok [] => .skip
    | .ok accum => .apply fun e => setFlatRun sep f e accum

end Flatland.Spec
