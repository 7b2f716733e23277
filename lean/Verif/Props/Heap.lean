import Verif.Proofs.Heap
/-! C64: parents.  A history is any sequence of operations on any elements, starting with no element at all; operations may raise. -/
namespace Flatland
open Spec

/-- C64: after any history every member of every container has that container as parent (in a List: through its slot) -/
theorem C64_children_know_parent {ops : List HOp} (hp : ProperRun [] ops) {c e : Nat} (he : e ∈ membersOf (hRun [] ops) c) :
    ParentIs (hRun [] ops) c e := parentIs_of (hRun_ok ops inv_nil hp) he

/-- C64: an element is a member of one container only, and only once -/
theorem C64_one_place {ops : List HOp} (hp : ProperRun [] ops) :
    (∀ c, (membersOf (hRun [] ops) c).Nodup) ∧
    ∀ c c' e, e ∈ membersOf (hRun [] ops) c → e ∈ membersOf (hRun [] ops) c' → c = c' :=
  ⟨members_nodup (hRun_ok ops inv_nil hp), fun _ _ _ h h' => one_holder (hRun_ok ops inv_nil hp) h h'⟩

/-- C64: `parents` lists, nearest first, exactly the objects that hold the element, up to the top one; so the last is `root` -/
theorem C64_parents {ops : List HOp} (hp : ProperRun [] ops) {e : Nat} {path : List Nat} (hu : Upward (hRun [] ops) e path) {n : Nat}
    (hn : path.length ≤ n) : hParents (hRun [] ops) n e = path := upward_parents (hRun_ok ops inv_nil hp) path e n hu hn

/-- C64: no operation changes the parent of an element that was not given to it -/
theorem C64_others_keep_parent {ops : List HOp} (hp : ProperRun [] ops) {op : HOp} (ho : Proper (hRun [] ops) op) {r : Nat}
    (hr : r < (hRun [] ops).length) (hs : ¬ IsSlot (hRun [] ops) r) (hn : r ∉ HOp.supplies op) :
    parentOf (hStep (hRun [] ops) op).1 r = parentOf (hRun [] ops) r := by
  refine keeps_parent (hStep_ok (hRun_ok ops inv_nil hp) ho).2 hr ?_ hn
  cases hb : slotB (bodyOf (hRun [] ops) r) with
  | true => exact absurd (slotB_iff.1 hb) hs
  | false => rfl

/-- C64: no operation changes the members of a container it is not about -/
theorem C64_others_keep_members {ops : List HOp} (hp : ProperRun [] ops) {op : HOp} (ho : Proper (hRun [] ops) op) {c : Nat}
    (hc : c < (hRun [] ops).length) (hn : c ∉ changes (hRun [] ops) op) :
    membersOf (hStep (hRun [] ops) op).1 c = membersOf (hRun [] ops) c :=
  keeps_members (hRun_ok ops inv_nil hp) (hStep_ok (hRun_ok ops inv_nil hp) ho).2 hc hn

/-- C64: an element that leaves its container is loose afterwards: it may be added to another one -/
theorem C64_leaving_is_loose {ops : List HOp} (hp : ProperRun [] ops) {op : HOp} (ho : Proper (hRun [] ops) op) {c e : Nat}
    (he : e ∈ membersOf (hRun [] ops) c) (hn : e ∉ membersOf (hStep (hRun [] ops) op).1 c) : Loose (hStep (hRun [] ops) op).1 e :=
  leaves_loose (hRun_ok ops inv_nil hp) ho he hn

/-- C64: `append` of a loose element makes that very element the last member, and the container its parent -/
theorem C64_append_joins {ops : List HOp} (hp : ProperRun [] ops) {c e : Nat} (hs : isSeqBody (bodyOf (hRun [] ops) c) = true)
    (he : Loose (hRun [] ops) e) :
    membersOf (hStep (hRun [] ops) (.append c (.elem e))).1 c = membersOf (hRun [] ops) c ++ [e] ∧
    ParentIs (hStep (hRun [] ops) (.append c (.elem e))).1 c e := by
  have hi := hRun_ok ops inv_nil hp
  have hm : membersOf (hStep (hRun [] ops) (.append c (.elem e))).1 c = membersOf (hRun [] ops) c ++ [e] := by
    simp only [hStep, HOp.applies, hs, ↓reduceIte, hDo, hAsElement]
    exact members_hAppend hi hs (good_of_loose hi he)
  refine ⟨hm, parentIs_of (hStep_ok hi ⟨?_, ?_, ?_⟩).1 (by rw [hm]; simp)⟩
  · simpa [HOp.supplies, suppliedRefs] using he
  · simp [HOp.supplies, suppliedRefs]
  · intro _ _ _ h'; cases h'

/-- C64: `insert` of a loose element puts that very element there, and the container becomes its parent -/
theorem C64_insert_joins {ops : List HOp} (hp : ProperRun [] ops) {c e : Nat} (i : Int) (hs : isSeqBody (bodyOf (hRun [] ops) c) = true)
    (he : Loose (hRun [] ops) e) :
    membersOf (hStep (hRun [] ops) (.insert c i (.elem e))).1 c = pyInsert (membersOf (hRun [] ops) c) i e ∧
    ParentIs (hStep (hRun [] ops) (.insert c i (.elem e))).1 c e := by
  have hi := hRun_ok ops inv_nil hp
  have hok := (hStep_ok (h := hRun [] ops) (op := .insert c i (.elem e)) hi
    ⟨by simpa [HOp.supplies, suppliedRefs] using he, by simp [HOp.supplies, suppliedRefs], fun _ _ _ h' => by cases h'⟩).1
  have hst : hStep (hRun [] ops) (.insert c i (.elem e)) = hDo (hRun [] ops) (.insert c i (.elem e)) := by
    simp only [hStep, HOp.applies, hs, ↓reduceIte]
  rw [hst] at hok ⊢
  have hm := members_hInsert hi hs (good_of_loose hi he) hok
  exact ⟨hm, parentIs_of hok (by rw [hm]; unfold pyInsert; simp)⟩

/-- C64: slice assignment of elements to the whole sequence, `seq[:] = elements`, is deleting all members and then assigning; so it may be
given the sequence's own members, in another order or fewer of them -/
theorem C64_rearrange {ops : List HOp} (hp : ProperRun [] ops) {c : Nat} (hs : isSeqBody (bodyOf (hRun [] ops) c) = true) {rs : List Nat}
    (hn : rs.Nodup) (hr : ∀ r ∈ rs, Loose (hRun [] ops) r ∨ r ∈ membersOf (hRun [] ops) c) :
    membersOf (hStep (hRun [] ops) (.setSlice c none none none (rs.map .elem))).1 c = rs ∧
    (∀ r ∈ rs, ParentIs (hStep (hRun [] ops) (.setSlice c none none none (rs.map .elem))).1 c r) ∧
    ∃ ops', ProperRun [] ops' ∧ hRun [] ops' = (hStep (hRun [] ops) (.setSlice c none none none (rs.map .elem))).1 := by
  have hi := hRun_ok ops inv_nil hp
  obtain ⟨h1, h2, h3⟩ := rearrange_ok hi hs hn hr
  refine ⟨h2, fun r hr' => parentIs_of h1 (by rw [h2]; exact hr'), ops ++ [.delSlice c none none none, .setSlice c none none none (rs.map .elem)], ?_, ?_⟩
  · exact properRun_append hp ⟨proper_del, h3.2, trivial⟩
  · rw [hRun_append]; simp only [hRun]; exact h3.1

/-- C64: deleting, popping, reversing, sorting and assigning an item do to the members of a Sequence what they do to a Python list: the very same elements remain,
but for the one taken away or replaced -/
theorem C64_members_after {h : OHeap} {c : Nat} (hs : isSeqBody (bodyOf h c) = true) :
    (∀ i j, pyIndex (membersOf h c).length i = some j →
      membersOf (hStep h (.delItem c i)).1 c = (membersOf h c).eraseIdx j ∧ membersOf (hStep h (.pop c i)).1 c = (membersOf h c).eraseIdx j) ∧
    membersOf (hStep h (.reverse c)).1 c = (membersOf h c).reverse ∧
    (∀ lt rev, (membersOf (hStep h (.sort c lt rev)).1 c).Perm (membersOf h c)) ∧
    (isListBody (bodyOf h c) = false → ∀ i j e, pyIndex (membersOf h c).length i = some j →
      membersOf (hStep h (.setItem c i (.elem e))).1 c = (membersOf h c).set j e) := by
  have hlen : (membersOf h c).length = (entries (bodyOf h c)).length := by rw [membersOf_shown hs, List.length_map]
  refine ⟨fun i j hj => ?_, ?_, fun lt rev => ?_, fun hl i j e hj => ?_⟩
  · rw [hlen] at hj
    have h1 : membersOf (setEntries h c ((entries (bodyOf h c)).eraseIdx j)) c = (membersOf h c).eraseIdx j := by
      rw [membersOf_setEntries hs, membersOf_shown hs, map_eraseIdx]
    constructor
    · simp only [hStep, HOp.applies, hs, if_true, hDo, hj]
      exact h1
    · simp only [hStep, HOp.applies, hs, if_true, hDo, hj]
      split
      · split
        · rw [membersOf_setParent]; exact h1
        · exact h1
      · exact h1
  · simp only [hStep, HOp.applies, hs, if_true, hDo]
    rw [membersOf_setEntries hs, membersOf_shown hs, List.map_reverse]
  · simp only [hStep, HOp.applies, hs, if_true, hDo]
    rw [membersOf_setEntries hs, membersOf_shown hs]
    exact (pySort_perm _ _ _).map _
  · rw [hlen] at hj
    simp only [hStep, HOp.applies, hs, hl, Bool.not_false, Bool.and_true, if_true, hDo, hAsElement, hSetItem, hj]
    have h1 : shown h c = id := by funext x; simp [shown, hl]
    rw [membersOf_setEntries hs, membersOf_shown hs, h1, List.map_id, List.map_id]

/-- an Array of three: the first is deleted, the last replaced and the order reversed -/
example : membersOf (hRun [] [.create (.seq [.scalar, .scalar, .scalar]), .create .scalar]) 0 = [1, 2, 3] ∧
    membersOf (hRun [] [.create (.seq [.scalar, .scalar, .scalar]), .create .scalar, .delItem 0 0, .setItem 0 (-1) (.elem 4), .reverse 0]) 0 = [4, 2] := by
  decide +kernel

/-! ### where it fails -/

/-- C64, not: item assignment of an element to a Sequence without slots (Array) never sets the element's parent -/
theorem C64_item_assignment_unlinked (h : OHeap) (c e : Nat) (i : Int) : parentOf (hStep h (.setItem c i (.elem e))).1 e = parentOf h e := by
  unfold hStep
  split
  · simp only [hDo, hAsElement, hSetItem]
    split
    · rfl
    · exact parentOf_setBody ..
  · rfl

/-- the element is a member all the same -/
example : membersOf (hRun [] [.create (.seq [.scalar]), .create .scalar, .setItem 0 0 (.elem 2)]) 0 = [2] ∧
    parentOf (hRun [] [.create (.seq [.scalar]), .create .scalar, .setItem 0 0 (.elem 2)]) 2 = none := by decide +kernel

/-- C64, not: an element added to a second container is a member of both, and the first is no longer its parent -/
theorem C64_shared_element : ∃ ops, membersOf (hRun [] ops) 0 = [2] ∧ membersOf (hRun [] ops) 1 = [2] ∧
    ¬ ParentIs (hRun [] ops) 0 2 := by
  refine ⟨[.create (.seq []), .create (.seq []), .create .scalar, .append 0 (.elem 2), .append 1 (.elem 2)], by decide +kernel, by decide +kernel, ?_⟩
  intro h
  have : parentOf (hRun [] [.create (.seq []), .create (.seq []), .create .scalar, .append 0 (.elem 2), .append 1 (.elem 2)]) 2 = some 0 := h
  exact absurd this (by decide +kernel)

/-- C64, not: a slice assignment that raises halfway (`lst[:] = [lst[0], 'unacceptable']`) leaves the List's members as they were, but the
first one's parent is now a slot outside the List -/
theorem C64_failed_slice : ∃ ops, membersOf (hRun [] ops) 0 = [1] ∧
    (hStep (hRun [] ops) (.setSlice 0 none none none [.elem 1, .raises .value])).2 = .error .value ∧
    membersOf (hStep (hRun [] ops) (.setSlice 0 none none none [.elem 1, .raises .value])).1 0 = [1] ∧
    ¬ ParentIs (hStep (hRun [] ops) (.setSlice 0 none none none [.elem 1, .raises .value])).1 0 1 := by
  refine ⟨[.create (.list [.scalar])], by decide +kernel, by rfl, by decide +kernel, ?_⟩
  intro h
  have h' : ∃ s ∈ [2], parentOf (hStep (hRun [] [.create (.list [.scalar])]) (.setSlice 0 none none none [.elem 1, .raises .value])).1 1 = some s ∧ _ ∧ _ := h
  obtain ⟨s, hs, hp, _⟩ := h'
  simp only [List.mem_singleton] at hs
  subst hs
  exact absurd hp (by decide +kernel)

/-- C64, not: an element that was removed still names its old container as its parent -/
theorem C64_removed_keeps_parent : ∃ ops, Loose (hRun [] ops) 1 ∧ parentOf (hRun [] ops) 1 = some 0 :=
  ⟨[.create (.seq [.scalar]), .delItem 0 0], loose_check (by decide +kernel) (by decide +kernel) (by decide +kernel), by decide +kernel⟩

/-! ### the hypotheses are met -/

/-- a form: a Dict with a List of two scalars and an Array; then an element is made on its own, appended to the List, moved to the Array -/
def exampleHistory : List HOp :=
  [.create (.mapping [(['l'], .list [.scalar, .scalar]), (['a'], .seq [])]),
   .create .scalar, .append 1 (.elem 7), .pop 1 (-1), .append 6 (.elem 7), .append 1 (.value .scalar), .reverse 1,
   .extend 1 [.value .scalar, .raises .value]]

example : ProperRun [] exampleHistory := by
  unfold exampleHistory
  refine ⟨⟨?_, by decide +kernel, ?_⟩, ⟨?_, by decide +kernel, ?_⟩, ⟨?_, by decide +kernel, ?_⟩, ⟨?_, by decide +kernel, ?_⟩, ⟨?_, by decide +kernel, ?_⟩,
    ⟨?_, by decide +kernel, ?_⟩, ⟨?_, by decide +kernel, ?_⟩, ⟨?_, by decide +kernel, ?_⟩, trivial⟩
  all_goals first
    | (intro _ _ _ h; cases h)
    | (intro r hr; exact absurd (show r ∈ ([] : List Nat) from hr) List.not_mem_nil)
    | (intro r hr; simp only [HOp.supplies, suppliedRefs, List.mem_singleton] at hr; subst hr
       exact loose_check (by decide +kernel) (by decide +kernel) (by decide +kernel))
example : membersOf (hRun [] exampleHistory) 0 = [1, 6] ∧ membersOf (hRun [] exampleHistory) 6 = [7] ∧ (membersOf (hRun [] exampleHistory) 1).length = 4 ∧
    hParents (hRun [] exampleHistory) 9 7 = [6, 0] := by decide +kernel

end Flatland
