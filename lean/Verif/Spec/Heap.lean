import Verif.Model.Heap
/-! Specification for C64: elements and their parents. -/
namespace Flatland.Spec
open Flatland

/-- is the object a slot? -/
def IsSlot (h : OHeap) (r : Nat) : Prop := ∃ e, bodyOf h r = .slot e

/-- the members of a container as its `children` shows them: a slot is replaced by the element in it -/
def membersOf (h : OHeap) (c : Nat) : List Nat := match bodyOf h c with
  | .seq ms => ms
  | .list ss => ss.map (entryElem h)
  | .mapping kvs => kvs.map Prod.snd
  | _ => []

/-- the element's `.parent` leads to the container: it is the container, or for a List the slot of the List that holds the element -/
def ParentIs (h : OHeap) (c e : Nat) : Prop := match bodyOf h c with
  | .list ss => ∃ s ∈ ss, parentOf h e = some s ∧ bodyOf h s = .slot e ∧ parentOf h s = some c
  | _ => parentOf h e = some c

/-- an element (not a slot) that is no member of any container at the moment -/
def Loose (h : OHeap) (r : Nat) : Prop := r < h.length ∧ ¬ IsSlot h r ∧ ∀ c, r ∉ membersOf h c

/-- the elements among the arguments -/
def suppliedRefs : List HArg → List Nat
  | [] => []
  | .elem r :: as => r :: suppliedRefs as
  | _ :: as => suppliedRefs as

/-- the elements given to an operation as new members (an element given to `remove` is only compared) -/
def HOp.supplies : HOp → List Nat
  | .append _ a => suppliedRefs [a]
  | .extend _ as => suppliedRefs as
  | .insert _ _ a => suppliedRefs [a]
  | .setItem _ _ a => suppliedRefs [a]
  | .setSlice _ _ _ _ as => suppliedRefs as
  | .put _ _ a => suppliedRefs [a]
  | _ => []

/-- the container whose content the operation is about: for `lst[i] = value` the i-th member of the List, for `dct[key] = value` the member
under the key if there is one -/
def changes (h : OHeap) : HOp → List Nat
  | .create _ => []
  | .set c _ => [c]
  | .append c _ => [c]
  | .extend c _ => [c]
  | .insert c _ _ => [c]
  | .setItem c _ _ => [c]
  | .setMember c i _ => (((entryAt (entries (bodyOf h c)) i).map (entryElem h))).toList
  | .setSlice c _ _ _ _ => [c]
  | .delItem c _ => [c]
  | .delSlice c _ _ _ => [c]
  | .pop c _ => [c]
  | .remove c _ _ => [c]
  | .reverse c => [c]
  | .sort c _ _ => [c]
  | .put c key (.value _) => match dictGet (itemsOf (bodyOf h c)) key with
    | some r => [r]
    | none => [c]
  | .put c _ _ => [c]
  | .del c _ => [c]
  | .reset c _ => [c]

/-- elements given as new members are loose and given once; none is given to `seq[i] = …` (see `C64_item_assignment_unlinked`) -/
def Proper (h : OHeap) (op : HOp) : Prop :=
  (∀ r ∈ HOp.supplies op, Loose h r) ∧ (HOp.supplies op).Nodup ∧ ∀ c i r, op ≠ .setItem c i (.elem r)

/-- every operation of the history is proper at its time -/
def ProperRun : OHeap → List HOp → Prop
  | _, [] => True
  | h, op :: ops => Proper h op ∧ ProperRun (hStep h op).1 ops

/-- the container or slot that directly holds `e` -/
def HeldBy (h : OHeap) (c e : Nat) : Prop := match bodyOf h c with
  | .seq ms => e ∈ ms
  | .list ss => e ∈ ss
  | .mapping kvs => e ∈ kvs.map Prod.snd
  | .slot e' => e = e' ∧ ∃ l ss, bodyOf h l = .list ss ∧ c ∈ ss
  | .scalar => False

/-- `path` leads from `e` up to a top element: each holds the one before it, the last has no parent -/
def Upward (h : OHeap) : Nat → List Nat → Prop
  | e, [] => parentOf h e = none
  | e, c :: cs => HeldBy h c e ∧ Upward h c cs

end Flatland.Spec
