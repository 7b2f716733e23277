import Verif.Proofs.Lists
/-!
C24: List members are numbered by position.  C25: List and Array operations act like Python's.  C26: `set`.
C27: MultiValue.  (C62: see also Props/Equality.lean.)
-/
namespace Flatland
open Flatland.Spec

variable {V E κ : Type}

/-! ### C24 -/

/-- **C24.** After any history of operations, successful or failing, with any indexes and arguments, member `i` of a List sits in
a slot named `i` (from which the flattened keys are made), unless a comparison raised inside a sort. -/
theorem C24_numbered (c : MemberClass V E) (ops : List (ListOp V E κ)) (h : ∀ op ∈ ops, Compares op) :
    Numbered (listHistory c [] ops) := by
  have : ∀ (ops : List (ListOp V E κ)) (st : Slots E), Numbered st → (∀ op ∈ ops, Compares op) → Numbered (listHistory c st ops) := by
    intro ops
    induction ops with
    | nil => intro st hst _; exact hst
    | cons op ops ih =>
      intro st hst hops
      exact ih _ (listStep_numbered c hst op (hops op (by simp))) fun o ho => hops o (by simp [ho])
  exact this ops [] numbered_nil h

/-- **C24**: member `i` is found by child lookup under the decimal spelling of `i`, also when written with leading zeros. -/
theorem C24_lookup [Runtime] (st : Slots E) (i w : Nat) (e : E) (h : (members st)[i]? = some e) :
    listIndex st (padNat w i) = .ok e := by
  rw [members_getElem?] at h
  cases hs : st[i]? with
  | none => rw [hs] at h; cases h
  | some s =>
    rw [hs] at h
    have hlt := (List.getElem?_eq_some_iff.1 hs).1
    have h : s.elem = e := by simpa using h
    simp only [listIndex, pyInt_padNat, listGet, pyIndex]
    simp [hlt, ← h, (List.getElem?_eq_some_iff.1 hs).2]

/-! ### C25 -/

/-- **C25**, append: the member goes to the end; when it cannot be made, nothing changes. -/
theorem C25_append (c : MemberClass V E) (st : Slots E) (a : Arg V E) :
    (∀ e, asElement c a = .ok e → members (listAppend c st a).1 = members st ++ [e] ∧ (listAppend c st a).2 = .ok ()) ∧
    (∀ er, asElement c a = .error er → listAppend c st a = (st, .error er)) := by
  constructor
  · intro e h; simp [listAppend, h, members, newSlot]
  · intro er h; simp [listAppend, h]

/-- **C25**, extend: all members go to the end, in order. -/
theorem C25_extend (c : MemberClass V E) (st : Slots E) (as : List (Arg V E)) (es : List E) (h : Becomes c as es) :
    members (listExtend c st ⟨as, none⟩).1 = members st ++ es ∧ (listExtend c st ⟨as, none⟩).2 = .ok () := by
  have := listExtendLoop_members h st
  unfold listExtend
  split <;> rename_i heq <;> rw [heq] at this <;> simp_all

/-- **C25**, insert: like `list.insert`, with negative and too large indexes. -/
theorem C25_insert (c : MemberClass V E) (st : Slots E) (i : Int) (a : Arg V E) (e : E) (h : asElement c a = .ok e) :
    members (listInsert c st i a).1 = pyInsert (members st) i e ∧ (listInsert c st i a).2 = .ok () := by
  simp [listInsert, h, members_renumber, members_pyInsert, newSlot]

/-- **C25**, item assignment: IndexError exactly when Python raises it, and then nothing changes; otherwise that member, and no
other, is `set`. -/
theorem C25_setitem (c : MemberClass V E) (st : Slots E) (i : Int) (a : Arg V E) :
    (pyIndex (members st).length i = none → listSetItem c st i a = (st, .error .index)) ∧
    (∀ j e, pyIndex (members st).length i = some j → (members st)[j]? = some e →
      members (listSetItem c st i a).1 = (members st).set j (c.set e a).1 ∧
      (listSetItem c st i a).2 = (c.set e a).2.map fun _ => ()) := by
  rw [length_members]
  constructor
  · intro h; simp [listSetItem, h]
  · intro j e h he
    rw [members_getElem?] at he
    cases hs : st[j]? with
    | none => rw [hs] at he; cases he
    | some s =>
      rw [hs] at he
      have he : s.elem = e := by simpa using he
      simp only [listSetItem, h, hs, he]
      split <;> rename_i heq <;> simp [heq, members, List.map_set, Except.map]

/-- **C25**, slice assignment: as in Python, including extended slices and the ValueError when the sizes differ (then nothing
changes). -/
theorem C25_setslice (c : MemberClass V E) (st : Slots E) (a b s : Option Int) (as : List (Arg V E)) (es : List E)
    (h : Becomes c as es) :
    (∀ ms, pySetSlice (members st) a b s es = .ok ms →
      members (listSetSlice c st a b s ⟨as, none⟩).1 = ms ∧ (listSetSlice c st a b s ⟨as, none⟩).2 = .ok ()) ∧
    (∀ er, pySetSlice (members st) a b s es = .error er → listSetSlice c st a b s ⟨as, none⟩ = (st, .error er)) := by
  have hes : iterElements c ⟨as, none⟩ = .ok es := by simp [iterElements, asElements_becomes.1 h]
  have hm : members (es.map (newSlot st)) = es := by simp [members, newSlot, Function.comp_def]
  have hk := members_pySetSlice st a b s (es.map (newSlot st))
  rw [hm] at hk
  simp only [listSetSlice, hes]
  rw [← hk]
  cases pySetSlice st a b s (es.map (newSlot st)) with
  | error er => simp [Except.map]
  | ok st' => simp [Except.map, members_renumber]

/-- **C25**, item deletion. -/
theorem C25_delitem (st : Slots E) (i : Int) :
    (pyIndex (members st).length i = none → listDelItem st i = (st, .error .index)) ∧
    (∀ j, pyIndex (members st).length i = some j →
      members (listDelItem st i).1 = (members st).eraseIdx j ∧ (listDelItem st i).2 = .ok ()) := by
  rw [length_members]
  constructor
  · intro h; simp [listDelItem, h]
  · intro j h; simp [listDelItem, h, members_renumber, members_eraseIdx]

/-- **C25**, slice deletion. -/
theorem C25_delslice (st : Slots E) (a b s : Option Int) :
    (∀ ms, pyDelSlice (members st) a b s = .ok ms →
      members (listDelSlice st a b s).1 = ms ∧ (listDelSlice st a b s).2 = .ok ()) ∧
    (∀ er, pyDelSlice (members st) a b s = .error er → listDelSlice st a b s = (st, .error er)) := by
  unfold listDelSlice pyDelSlice
  rw [length_members]
  split
  · simp
  · simp [members_renumber, members_eraseIndexes]

/-- **C25**, pop: the same member is removed as in Python.  What is returned is the slot around that member. -/
theorem C25_pop (st : Slots E) (i : Int) :
    (pyIndex (members st).length i = none → listPop st i = (st, .error .index)) ∧
    (∀ j e, pyIndex (members st).length i = some j → (members st)[j]? = some e →
      members (listPop st i).1 = (members st).eraseIdx j ∧ ∃ s, (listPop st i).2 = .ok s ∧ s.elem = e) := by
  rw [length_members]
  constructor
  · intro h; simp [listPop, h]
  · intro j e h he
    rw [members_getElem?] at he
    cases hs : st[j]? with
    | none => rw [hs] at he; cases he
    | some s =>
      rw [hs] at he
      simp only [listPop, h, hs]
      exact ⟨by rw [members_renumber, members_eraseIdx], s, rfl, by simpa using he⟩

/-- **C25**, remove: the first equal member goes; ValueError, and no change, when there is none. -/
theorem C25_remove (c : MemberClass V E) (st : Slots E) (a : Arg V E) (e : E) (h : asElement c a = .ok e) :
    (∀ ms, pyRemove (fun m => c.eq m e) (members st) = some ms →
      members (listRemove c st a).1 = ms ∧ (listRemove c st a).2 = .ok ()) ∧
    (pyRemove (fun m => c.eq m e) (members st) = none → listRemove c st a = (st, .error .value)) := by
  have hk := members_pyRemove (fun m => c.eq m e) st
  simp only [listRemove, h]
  rw [← hk]
  cases pyRemove (fun s => c.eq s.elem e) st with
  | none => simp
  | some st' => simp [members_renumber]

/-- **C25**, reverse. -/
theorem C25_reverse (st : Slots E) : members (listReverse st).1 = (members st).reverse := by
  simp only [listReverse, members_renumber]
  simp [members]

/-- **C25**, sort: the members end up as Python's sort with the same key would leave them. -/
theorem C25_sort (st : Slots E) (lt : κ → κ → Bool) (key : E → κ) (rev : Bool) :
    members (listSort st (.done lt (fun s => key s.elem) rev)).1 = pySort lt key rev (members st) := by
  simp only [listSort, members_renumber, members_pySort]

/-- **C25**: that sort is a reordering, ordered by key, and keeps members with equivalent keys in their order. -/
theorem C25_sort_is_stable {α} {lt : κ → κ → Bool} (hs : StrictWeak lt) (key : α → κ) (xs : List α) :
    (pySort lt key false xs).Perm xs ∧
    (pySort lt key false xs).Pairwise (fun x y => lt (key y) (key x) = false) ∧
    ∀ z, (pySort lt key false xs).filter (fun y => !lt (key y) (key z) && !lt (key z) (key y)) =
      xs.filter (fun y => !lt (key y) (key z) && !lt (key z) (key y)) := by
  have hk := strictWeak_key hs key
  simp only [pySort, Bool.false_eq_true, if_false]
  exact ⟨stableSort_perm _ _, stableSort_sorted hk _, fun z => stableSort_stable hk z xs⟩

/-- **C25**: the same for a descending sort. -/
theorem C25_sort_reverse_is_stable {α} {lt : κ → κ → Bool} (hs : StrictWeak lt) (key : α → κ) (xs : List α) :
    (pySort lt key true xs).Perm xs ∧
    (pySort lt key true xs).Pairwise (fun x y => lt (key x) (key y) = false) ∧
    ∀ z, (pySort lt key true xs).filter (fun y => !lt (key y) (key z) && !lt (key z) (key y)) =
      xs.filter (fun y => !lt (key y) (key z) && !lt (key z) (key y)) := by
  have hk := strictWeak_key hs key
  simp only [pySort, if_true]
  refine ⟨?_, ?_, fun z => ?_⟩
  · exact (List.reverse_perm _).trans ((stableSort_perm _ _).trans (List.reverse_perm _))
  · rw [List.pairwise_reverse]; exact stableSort_sorted hk _
  · have := stableSort_stable hk z xs.reverse
    rw [List.filter_reverse]
    have : (stableSort (fun x y => lt (key x) (key y)) xs.reverse).filter (fun y => !lt (key y) (key z) && !lt (key z) (key y)) =
      xs.reverse.filter (fun y => !lt (key y) (key z) && !lt (key z) (key y)) := this
    rw [this, List.filter_reverse, List.reverse_reverse]

/-- **C25** for Arrays and other Sequences: append, extend, insert, item and slice assignment and remove give what Python's list
gives for the members. -/
theorem C25_sequence (c : MemberClass V E) (st : List E) (a : Arg V E) (e : E) (h : asElement c a = .ok e) (i : Int) :
    seqAppend c st a = (st ++ [e], .ok ()) ∧
    seqInsert c st i a = (pyInsert st i e, .ok ()) ∧
    seqSetItem c st i a = (match pyIndex st.length i with | none => (st, .error .index) | some j => (st.set j e, .ok ())) ∧
    seqRemove c st a = (match pyRemove (fun m => c.eq m e) st with | none => (st, .error .value) | some st' => (st', .ok ())) := by
  simp only [seqAppend, seqInsert, seqSetItem, seqRemove, h]
  refine ⟨trivial, trivial, ?_, ?_⟩ <;> (split <;> simp_all)

theorem C25_sequence_extend (c : MemberClass V E) (st : List E) (as : List (Arg V E)) (es : List E) (h : Becomes c as es) :
    seqExtend c st ⟨as, none⟩ = (st ++ es, .ok ()) := by
  simp [seqExtend, seqExtendLoop_members h]

theorem C25_sequence_setslice (c : MemberClass V E) (st : List E) (a b s : Option Int) (as : List (Arg V E)) (es : List E)
    (h : Becomes c as es) :
    seqSetSlice c st a b s ⟨as, none⟩ =
      (match pySetSlice st a b s es with | .error er => (st, .error er) | .ok st' => (st', .ok ())) := by
  have hes : iterElements c ⟨as, none⟩ = .ok es := by simp [iterElements, asElements_becomes.1 h]
  simp only [seqSetSlice, hes]
  split <;> simp_all

/-- **C25**: what Python's `remove` does – the first match is taken out, everything before it does not match. -/
theorem C25_remove_first {α} (p : α → Bool) (xs ys : List α) :
    pyRemove p xs = some ys ↔ ∃ l x r, xs = l ++ x :: r ∧ p x = true ∧ (∀ y ∈ l, p y = false) ∧ ys = l ++ r := by
  induction xs generalizing ys with
  | nil => simp [pyRemove]
  | cons z zs ih =>
    simp only [pyRemove]
    split
    · rename_i hz
      constructor
      · intro h; simp at h; subst h; exact ⟨[], z, zs, rfl, hz, by simp, rfl⟩
      · rintro ⟨l, x, r, hx, hp, hl, rfl⟩
        cases l with
        | nil => simp at hx; simp [hx]
        | cons w l => simp at hx; have := hl w (by simp); rw [← hx.1, hz] at this; cases this
    · rename_i hz
      constructor
      · intro h
        cases hr : pyRemove p zs with
        | none => rw [hr] at h; cases h
        | some zs' =>
          rw [hr] at h; simp at h; subst h
          obtain ⟨l, x, r, rfl, hp, hl, rfl⟩ := (ih zs').1 hr
          refine ⟨z :: l, x, r, rfl, hp, ?_, rfl⟩
          intro y hy
          rcases List.mem_cons.1 hy with rfl | hy
          · simpa using hz
          · exact hl y hy
      · rintro ⟨l, x, r, hx, hp, hl, rfl⟩
        cases l with
        | nil => simp at hx; rw [hx.1, hp] at hz; exact absurd rfl hz
        | cons w l =>
          simp at hx
          have := (ih (l ++ r)).2 ⟨l, x, r, hx.2, hp, fun y hy => hl y (by simp [hy]), rfl⟩
          simp [this, hx.1]

/-! ### C26 -/

/-- **C26.** `set` with an iterable all of whose items can be handed to new members makes those members, in order, the whole
content, and returns True iff every member accepted its item. -/
theorem C26_set (c : MemberClass V E) (st : Slots E) (as : List (Arg V E)) (es : List E) (bs : List Bool) (h : EachSet c as es bs) :
    members (listSet c st (some ⟨as, none⟩)).1 = es ∧ (listSet c st (some ⟨as, none⟩)).2 = .ok (bs.all id) := by
  have := listExtendLoop_members (becomes_el c es) []
  simp only [listSet, listDelSlice_all, setItems, setMembers_each h]
  exact ⟨by simpa [members] using this.1, trivial⟩

/-- **C26**: the same for an Array. -/
theorem C26_sequence_set (c : MemberClass V E) (st : List E) (as : List (Arg V E)) (es : List E) (bs : List Bool)
    (h : EachSet c as es bs) : seqSet c st (some ⟨as, none⟩) = (es, .ok (bs.all id)) := by
  simp [seqSet, pyDelSlice_all, setItems, setMembers_each h, seqExtendLoop_members (becomes_el c es)]

/-- **C26**: True is returned only in that case. -/
theorem C26_true_iff (c : MemberClass V E) (st : Slots E) (it : Option (Iter V E)) :
    (listSet c st it).2 = .ok true ↔
      ∃ as es bs, it = some ⟨as, none⟩ ∧ EachSet c as es bs ∧ bs.all id = true ∧ members (listSet c st it).1 = es := by
  constructor
  · intro h
    cases it with
    | none => simp [listSet, setItems] at h
    | some it =>
      obtain ⟨as, fails⟩ := it
      cases hm : setMembers c as with
      | error er => cases er <;> simp [listSet, setItems, hm] at h
      | ok r =>
        obtain ⟨es, b⟩ := r
        cases fails with
        | some er => cases er <;> simp [listSet, setItems, hm] at h
        | none =>
          simp [listSet, setItems, hm] at h
          obtain ⟨bs, h1, h2⟩ := setMembers_ok hm
          exact ⟨as, es, bs, rfl, h1, by rw [← h2, h], (C26_set c st as es bs h1).1⟩
  · rintro ⟨as, es, bs, rfl, h1, h2, _⟩
    rw [(C26_set c st as es bs h1).2, h2]

/-- **C26**: something that is not iterable gives False and an empty sequence. -/
theorem C26_not_iterable (c : MemberClass V E) (st : Slots E) (st' : List E) :
    listSet c st none = ([], .ok false) ∧ seqSet c st' none = ([], .ok false) := by
  simp [listSet, seqSet, listDelSlice_all, pyDelSlice_all, setItems]

/-- **C26**: the old members are gone whatever happens. -/
theorem C26_old_content_gone (c : MemberClass V E) (st st' : Slots E) (it : Option (Iter V E)) :
    listSet c st it = listSet c st' it := by simp only [listSet, listDelSlice_all]

/-- **C26**: when an item raises, or the iterable does, the sequence is left empty: False for a TypeError, any other exception
escapes. -/
theorem C26_raises (c : MemberClass V E) (st : Slots E) (it : Option (Iter V E)) (er : PyErr) (h : setItems c it = .error er) :
    listSet c st it = ([], if er = .type then .ok false else .error er) := by
  cases er <;> simp [listSet, listDelSlice_all, h]

/-! ### C27 -/

/-- **C27.** `u` and `value` are those of the first member. -/
theorem C27_read (m : ScalarState) (ms : List ScalarState) :
    mvU (m :: ms) = m.u ∧ mvValue (m :: ms) = m.value ∧ mvU [] = [] ∧ mvValue [] = .none := ⟨rfl, rfl, rfl, rfl⟩

/-- **C27.** Assigning them changes that attribute of the first member and nothing else, and is read back. -/
theorem C27_write (c : MemberClass PyVal ScalarState) (m : ScalarState) (ms : List ScalarState) (u : PStr) (v : PyVal) :
    mvSetU c (m :: ms) u = ({ m with u := u } :: ms, .ok ()) ∧
    mvSetValue c (m :: ms) v = ({ m with value := v } :: ms, .ok ()) ∧
    mvU (mvSetU c (m :: ms) u).1 = u ∧ mvValue (mvSetValue c (m :: ms) v).1 = v := ⟨rfl, rfl, rfl, rfl⟩

/-- **C27.** On an empty MultiValue the assignment creates exactly one member, made from None. -/
theorem C27_write_empty (c : MemberClass PyVal ScalarState) (m : ScalarState) (h : c.make .none = .ok m) (u : PStr) (v : PyVal) :
    mvSetU c [] u = ([{ m with u := u }], .ok ()) ∧ mvSetValue c [] v = ([{ m with value := v }], .ok ()) := by
  simp [mvSetU, mvSetValue, mvEnsure, seqAppend, asElement, h, mvFirst]

/-- **C27.** If no member can be made from None, the assignment raises what the member class raises, and the MultiValue stays empty. -/
theorem C27_write_raises (c : MemberClass PyVal ScalarState) (er : PyErr) (h : c.make .none = .error er) (u : PStr) (v : PyVal) :
    mvSetU c [] u = ([], .error er) ∧ mvSetValue c [] v = ([], .error er) := by
  simp [mvSetU, mvSetValue, mvEnsure, seqAppend, asElement, h]

/-- **C27.** A MultiValue is true iff it has members, is_empty iff it has none; reads as '' and None when empty. -/
theorem C27_truth (st : List ScalarState) : (mvBool st = true ↔ st ≠ []) ∧ (seqIsEmpty st = true ↔ st = []) ∧
    (mvBool st = false → mvU st = [] ∧ mvValue st = .none) := by
  cases st <;> simp [mvBool, seqIsEmpty, mvU, mvValue]

/-- **C27**: the converse of the last part fails: a MultiValue whose first member is blank is true. -/
theorem C27_true_with_blank_value : mvBool [.fresh] = true ∧ mvU [.fresh] = [] ∧ mvValue [.fresh] = .none := ⟨rfl, rfl, rfl⟩

/-! ### counterexamples and cases -/
section
attribute [local instance] Runtime.ascii

/-- Lists of unsigned integers -/
private abbrev ints : MemberClass PyVal ScalarState := scalarMember (integerType false 0) fun _ => .obj 0

private def el (i : Nat) : ScalarState := ⟨.int i, decimal i, some (.int i)⟩

/-- **C24** fails for a sort in which a comparison raises: CPython may have moved items already, and the slots keep the names
of their old places.  (Keys 1, 3, 2, 'x': the third is moved before the second, then 2 < 'x' raises.) -/
theorem C24_failed_sort_misnumbers :
    let st : Slots ScalarState := renumber [⟨[], el 1⟩, ⟨[], el 3⟩, ⟨[], el 2⟩, ⟨[], el 4⟩]
    let left : Slots ScalarState → Slots ScalarState := fun s => [s[0]?, s[2]?, s[1]?, s[3]?].filterMap id
    Numbered st ∧ (left st).Perm st ∧
    ¬ Numbered (listStep (κ := Int) ints st (.sort (.compareFails .type left))) := by
  refine ⟨renumber_numbered _, ?_, ?_⟩
  · exact .cons _ (.swap _ _ _)
  · intro h
    have := h 1 ⟨decimal 2, el 2⟩ rfl
    revert this
    have h1 : decimal 1 = ['1'] := by rw [decimal]; decide
    have h2 : decimal 2 = ['2'] := by rw [decimal]; decide
    simp [h1, h2]

/-- **C25** fails for the inherited `+=`: the items get no slots, and the List cannot even be iterated any more. -/
theorem C25_iadd_breaks (st : Slots E) (a : Arg V E) (as : List (Arg V E)) : rawMembers (listIAdd st (a :: as)) = .error .attribute := by
  unfold listIAdd
  induction st with
  | nil => rfl
  | cons s ss ih =>
    simp only [List.map_cons, List.cons_append, rawMembers] at ih ⊢
    rw [ih]; rfl

example : Numbered (listHistory ints [] [.extend ⟨[.val (.int 5), .val (.int 7), .val (.str ['9'])], none⟩,
    (.insert (-100) (.val (.int 1)) : ListOp PyVal ScalarState Int), .delItem 2, .delItem 9, .sort (.done (· < ·) (fun _ => 0) true)]) :=
  C24_numbered _ _ (by simp [Compares])
example : asElement ints (.val (.int 5)) = .ok ⟨.int 5, decimal 5, some (.int 5)⟩ := by
  simp [asElement, ints, scalarMember, scalarSet, integerType, intOf, padInt, padNat_zero]
example : pyInsert [1, 2, 3] (-1) 9 = [1, 2, 9, 3] ∧ pyInsert [1, 2, 3] (-7) 9 = [9, 1, 2, 3] ∧ pyInsert [1] 5 9 = [1, 9] := by decide
example : pySetSlice [0, 1, 2, 3, 4] (some 1) (some 3) none [9] = .ok [0, 9, 3, 4] ∧
    pySetSlice [0, 1, 2, 3, 4] (some 3) (some 1) none [9] = .ok [0, 1, 2, 9, 3, 4] ∧
    pySetSlice [0, 1, 2, 3, 4] none none (some (-2)) [7, 8, 9] = .ok [9, 1, 8, 3, 7] ∧
    pySetSlice [0, 1, 2, 3, 4] none none (some 2) [7, 8] = .error .value := by decide
example : pyDelSlice [0, 1, 2, 3, 4] none none (some 2) = .ok [1, 3] ∧ pyDelSlice [0, 1, 2, 3, 4] (some (-2)) none none = .ok [0, 1, 2] := by decide
example : pyRemove (· == 2) [1, 2, 3, 2] = some [1, 3, 2] := by decide
example : StrictWeak fun a b : Nat => decide (a < b) := ⟨by simp, by simp; omega, by simp; omega⟩
example : pySort (fun a b : Nat => decide (a < b)) (· % 10) false [12, 31, 22, 11] = [31, 11, 12, 22] ∧
    pySort (fun a b : Nat => decide (a < b)) (· % 10) true [12, 31, 22, 11] = [12, 22, 31, 11] := by decide
example : EachSet ints [.val (.str ['a']), .val .none] [⟨.none, ['a'], some (.str ['a'])⟩, ⟨.none, [], some .none⟩] [false, true] := by
  exact ⟨rfl, rfl, trivial⟩
example : ints.make .none = .ok ⟨.none, [], some .none⟩ := rfl
end
end Flatland
