import Verif.Spec.Lists
import Verif.Proofs.Text
/-! Lemmas about sequences. -/
namespace Flatland
open Flatland.Spec

variable {V E κ : Type}

theorem members_renumberFrom (i : Nat) (st : Slots E) : members (renumberFrom i st) = members st := by
  induction st generalizing i with
  | nil => rfl
  | cons s ss ih => simp only [renumberFrom, members, List.map_cons] at ih ⊢; rw [ih]

theorem members_renumber (st : Slots E) : members (renumber st) = members st := members_renumberFrom 0 st

theorem renumberFrom_name (i j : Nat) (st : Slots E) (s) (h : (renumberFrom i st)[j]? = some s) : s.name = decimal (i + j) := by
  induction st generalizing i j with
  | nil => simp [renumberFrom] at h
  | cons x xs ih =>
    cases j with
    | zero => simp [renumberFrom] at h; subst h; rfl
    | succ j => simp [renumberFrom] at h; have := ih (i + 1) j h; rw [this]; congr 1; omega

theorem renumber_numbered (st : Slots E) : Numbered (renumber st) := by
  intro i s h
  have := renumberFrom_name 0 i st s h
  simpa using this

theorem numbered_nil : Numbered ([] : Slots E) := by intro i s h; simp at h

theorem append_numbered {st : Slots E} (h : Numbered st) (e : E) : Numbered (st ++ [newSlot st e]) := by
  intro i s hs
  by_cases hi : i < st.length
  · rw [List.getElem?_append_left hi] at hs; exact h i s hs
  · rw [List.getElem?_append_right (by omega)] at hs
    have : i - st.length = 0 := by
      by_cases h0 : i - st.length = 0
      · exact h0
      · have : (i - st.length) = (i - st.length - 1) + 1 := by omega
        rw [this] at hs; simp at hs
    rw [this] at hs
    simp at hs
    subst hs
    simp only [newSlot]
    congr 1; omega

theorem listAppend_numbered (c : MemberClass V E) {st : Slots E} (h : Numbered st) (a : Arg V E) : Numbered (listAppend c st a).1 := by
  unfold listAppend
  split
  · exact h
  · exact append_numbered h _

theorem listExtendLoop_numbered (c : MemberClass V E) (as : List (Arg V E)) {st : Slots E} (h : Numbered st) :
    Numbered (listExtendLoop c st as).1 := by
  induction as generalizing st with
  | nil => exact h
  | cons a as ih =>
    unfold listExtendLoop
    have := listAppend_numbered c h a
    split <;> rename_i heq <;> rw [heq] at this
    · exact ih this
    · exact this

theorem listExtend_numbered (c : MemberClass V E) (it : Iter V E) {st : Slots E} (h : Numbered st) :
    Numbered (listExtend c st it).1 := by
  unfold listExtend
  have := listExtendLoop_numbered c it.items h
  split <;> rename_i heq <;> rw [heq] at this
  · exact this
  · split <;> exact this

theorem set_numbered {st : Slots E} (h : Numbered st) {j : Nat} {s : LSlot E} (hj : st[j]? = some s) (e : E) :
    Numbered (st.set j ⟨s.name, e⟩) := by
  intro i t ht
  by_cases hij : j = i
  · subst hij
    have hlt : j < st.length := (List.getElem?_eq_some_iff.1 hj).1
    rw [List.getElem?_set_self hlt] at ht
    simp at ht; subst ht
    exact h j s hj
  · rw [List.getElem?_set_ne hij] at ht; exact h i t ht

theorem listFill_numbered (es : List E) {st : Slots E} (h : Numbered st) : Numbered (listFill st es) := by
  induction es generalizing st with
  | nil => exact h
  | cons e es ih => exact ih (append_numbered h e)

theorem eraseIndexes_all {α} (xs : List α) : eraseIndexes xs (List.range xs.length) = [] := by
  simp only [eraseIndexes, List.filterMap_eq_nil_iff]
  intro i hi
  simp at hi
  simp [hi]

theorem sliceIndexes_all (n : Nat) : sliceIndexes n .none .none .none = List.range n := by
  have hc : sliceCount (sliceStart n 1 .none) (sliceStop n 1 .none) 1 = n := by
    simp only [sliceStart, sliceStop, sliceCount]
    repeat' split
    all_goals simp_all
    all_goals omega
  simp only [sliceIndexes, Option.getD_none]
  rw [hc]
  simp only [sliceStart]
  rw [if_neg (by decide)]
  conv => rhs; rw [← List.map_id (List.range n)]
  apply List.map_congr_left
  intro k _
  simp

theorem pyDelSlice_all {α} (xs : List α) : pyDelSlice xs .none .none .none = .ok [] := by
  simp [pyDelSlice, sliceIndexes_all, eraseIndexes_all]

theorem listDelSlice_all (st : Slots E) : listDelSlice st .none .none .none = ([], .ok ()) := by
  simp [listDelSlice, pyDelSlice_all, renumber, renumberFrom]

theorem listStep_numbered (c : MemberClass V E) {st : Slots E} (h : Numbered st) (op : ListOp V E κ) (hop : Compares op) :
    Numbered (listStep c st op) := by
  cases op with
  | append a => exact listAppend_numbered c h a
  | extend it => exact listExtend_numbered c it h
  | insert i a =>
    simp only [listStep, listInsert]
    split
    · exact h
    · exact renumber_numbered _
  | setItem i a =>
    simp only [listStep, listSetItem]
    split
    · exact h
    · split
      · exact h
      · rename_i hs
        split <;> exact set_numbered h hs _
  | setSlice a b s it =>
    simp only [listStep, listSetSlice]
    split
    · exact h
    · split
      · exact h
      · exact renumber_numbered _
  | delItem i =>
    simp only [listStep, listDelItem]
    split
    · exact h
    · exact renumber_numbered _
  | delSlice a b s =>
    simp only [listStep, listDelSlice]
    split
    · exact h
    · exact renumber_numbered _
  | pop i =>
    simp only [listStep, listPop]
    split
    · exact h
    · split
      · exact h
      · exact renumber_numbered _
  | remove a =>
    simp only [listStep, listRemove]
    split
    · exact h
    · split
      · exact h
      · exact renumber_numbered _
  | sort r =>
    cases r with
    | done => exact renumber_numbered _
    | keyFails => exact h
    | compareFails => cases hop
  | reverse => exact renumber_numbered _
  | set it =>
    simp only [listStep, listSet, listDelSlice_all]
    split
    · exact numbered_nil
    · exact numbered_nil
    · exact listExtendLoop_numbered c _ numbered_nil
  | fill es => simp only [listStep, listDelSlice_all]; exact listFill_numbered es numbered_nil

/-! ### members -/

theorem asElements_becomes {c : MemberClass V E} {as : List (Arg V E)} {es : List E} : Becomes c as es ↔ asElements c as = .ok es := by
  induction as generalizing es with
  | nil => cases es <;> simp [Becomes, asElements]
  | cons a as ih =>
    cases a with
    | el e =>
      cases es with
      | nil => simp only [Becomes, asElements, asElement]; cases asElements c as <;> simp
      | cons e' es =>
        simp only [Becomes, asElements, asElement, ih]
        cases asElements c as <;> simp
    | val v =>
      cases es with
      | nil =>
        simp only [Becomes, asElements, asElement]
        cases c.make v
        · simp
        · cases asElements c as <;> simp
      | cons e' es =>
        simp only [Becomes, asElements, asElement, ih]
        cases c.make v
        · simp
        · cases asElements c as <;> simp

theorem members_append (st st' : Slots E) : members (st ++ st') = members st ++ members st' := by simp [members]

theorem listExtendLoop_members {c : MemberClass V E} {as : List (Arg V E)} {es : List E} (h : Becomes c as es) (st : Slots E) :
    members (listExtendLoop c st as).1 = members st ++ es ∧ (listExtendLoop c st as).2 = .ok () := by
  induction as generalizing st es with
  | nil => cases es <;> simp_all [Becomes, listExtendLoop]
  | cons a as ih =>
    cases es with
    | nil => cases a <;> cases h
    | cons e es =>
      have ha : asElement c a = .ok e ∧ Becomes c as es := by
        cases a with
        | el e' => obtain ⟨rfl, h⟩ := h; exact ⟨rfl, h⟩
        | val v => exact h
      unfold listExtendLoop
      simp only [listAppend, ha.1]
      have := ih ha.2 (st ++ [newSlot st e])
      rw [this.1, this.2]
      simp [members, newSlot]

theorem seqExtendLoop_members {c : MemberClass V E} {as : List (Arg V E)} {es : List E} (h : Becomes c as es) (st : List E) :
    seqExtendLoop c st as = (st ++ es, .ok ()) := by
  induction as generalizing st es with
  | nil => cases es <;> simp_all [Becomes, seqExtendLoop]
  | cons a as ih =>
    cases es with
    | nil => cases a <;> cases h
    | cons e es =>
      have ha : asElement c a = .ok e ∧ Becomes c as es := by
        cases a with
        | el e' => obtain ⟨rfl, h⟩ := h; exact ⟨rfl, h⟩
        | val v => exact h
      unfold seqExtendLoop
      simp only [seqAppend, ha.1]
      rw [ih ha.2]; simp

theorem becomes_el (c : MemberClass V E) (es : List E) : Becomes c (es.map .el) es := by
  induction es with
  | nil => trivial
  | cons e es ih => exact ⟨rfl, ih⟩

theorem length_members (st : Slots E) : (members st).length = st.length := by simp [members]

theorem members_pyInsert (st : Slots E) (i : Int) (s : LSlot E) : members (pyInsert st i s) = pyInsert (members st) i s.elem := by
  simp [members, pyInsert]

theorem members_eraseIdx (st : Slots E) (j : Nat) : members (st.eraseIdx j) = (members st).eraseIdx j := by
  induction st generalizing j with
  | nil => simp [members]
  | cons s ss ih => cases j <;> simp_all [members]

theorem members_getElem? (st : Slots E) (j : Nat) : (members st)[j]? = st[j]?.map LSlot.elem := by simp [members]

theorem members_eraseIndexes (st : Slots E) (is : List Nat) : members (eraseIndexes st is) = eraseIndexes (members st) is := by
  unfold eraseIndexes
  rw [length_members]
  simp only [members]
  rw [List.map_filterMap]
  congr 1
  funext i
  split
  · rfl
  · simp

theorem members_writeIndexes (st : Slots E) (is : List Nat) (ys : Slots E) :
    members (writeIndexes st is ys) = writeIndexes (members st) is (members ys) := by
  induction is generalizing st ys with
  | nil => cases ys <;> simp [writeIndexes, members]
  | cons i is ih =>
    cases ys with
    | nil => simp [writeIndexes, members]
    | cons y ys =>
      simp only [writeIndexes, ih]
      simp [members, writeIndexes]

theorem members_pySetSlice (st : Slots E) (a b s : Option Int) (ys : Slots E) :
    (pySetSlice st a b s ys).map members = pySetSlice (members st) a b s (members ys) := by
  unfold pySetSlice
  rw [length_members, length_members]
  split
  · rfl
  · split
    · simp [Except.map, members]
    · split
      · simp [Except.map, members_writeIndexes]
      · rfl

theorem members_pyRemove (p : E → Bool) (st : Slots E) :
    (pyRemove (fun s => p s.elem) st).map members = pyRemove p (members st) := by
  induction st with
  | nil => rfl
  | cons s ss ih =>
    simp only [pyRemove, members, List.map_cons]
    split
    · rfl
    · have ih : Option.map members (pyRemove (fun s => p s.elem) ss) = pyRemove p (List.map LSlot.elem ss) := ih
      rw [← ih]
      cases pyRemove (fun s => p s.elem) ss <;> simp [members]

/-! ### sorting -/

theorem sortInsert_perm {α} (lt : α → α → Bool) (x : α) (xs : List α) : (sortInsert lt x xs).Perm (x :: xs) := by
  induction xs with
  | nil => exact .refl _
  | cons y ys ih =>
    simp only [sortInsert]
    split
    · exact (ih.cons y).trans (.swap x y ys)
    · exact .refl _

theorem stableSort_perm {α} (lt : α → α → Bool) (xs : List α) : (stableSort lt xs).Perm xs := by
  induction xs with
  | nil => exact .refl _
  | cons x xs ih => exact (sortInsert_perm lt x _).trans (ih.cons x)

theorem sortInsert_sorted {α} {lt : α → α → Bool} (hs : StrictWeak lt) (x : α) (xs : List α)
    (h : xs.Pairwise fun a b => lt b a = false) : (sortInsert lt x xs).Pairwise fun a b => lt b a = false := by
  induction xs with
  | nil => simp [sortInsert]
  | cons y ys ih =>
    simp only [sortInsert]
    rw [List.pairwise_cons] at h
    split
    · rename_i hyx
      rw [List.pairwise_cons]
      refine ⟨?_, ih h.2⟩
      intro z hz
      have hz' := (sortInsert_perm lt x ys).mem_iff.1 hz
      rcases List.mem_cons.1 hz' with rfl | hz'
      · cases hzy : lt z y with
        | false => rfl
        | true => have := hs.trans _ _ _ hyx hzy; rw [hs.irrefl] at this; cases this
      · exact h.1 z hz'
    · rename_i hyx
      have hyx : lt y x = false := by simpa using hyx
      rw [List.pairwise_cons]
      refine ⟨?_, List.pairwise_cons.2 h⟩
      intro z hz
      rcases List.mem_cons.1 hz with rfl | hz
      · exact hyx
      · have hzy := h.1 z hz
        cases hzx : lt z x with
        | false => rfl
        | true =>
          exfalso
          -- z < x; y not < x; z not < y
          cases hyz : lt y z with
          | true => have := hs.trans _ _ _ hyz hzx; rw [hyx] at this; cases this
          | false =>
            cases hxy : lt x y with
            | true => have := hs.trans _ _ _ hzx hxy; rw [hzy] at this; cases this
            | false =>
              have := (hs.incomp z y x hzy hyz hyx hxy).1
              rw [hzx] at this; cases this

theorem stableSort_sorted {α} {lt : α → α → Bool} (hs : StrictWeak lt) (xs : List α) :
    (stableSort lt xs).Pairwise fun a b => lt b a = false := by
  induction xs with
  | nil => simp [stableSort]
  | cons x xs ih => exact sortInsert_sorted hs x _ ih

/-- equivalent to `z` -/
def equivTo {α} (lt : α → α → Bool) (z : α) (y : α) : Bool := !lt y z && !lt z y

theorem sortInsert_stable {α} {lt : α → α → Bool} (hs : StrictWeak lt) (z x : α) (xs : List α)
    : (sortInsert lt x xs).filter (equivTo lt z) = (x :: xs).filter (equivTo lt z) := by
  induction xs with
  | nil => rfl
  | cons y ys ih =>
    simp only [sortInsert]
    split
    · rename_i hyx
      rw [List.filter_cons, ih]
      cases hx : equivTo lt z x with
      | false => simp [hx, List.filter_cons]
      | true =>
        have hy : equivTo lt z y = false := by
          simp only [equivTo, Bool.and_eq_true, Bool.not_eq_true'] at hx
          cases hc : equivTo lt z y with
          | false => rfl
          | true =>
            simp only [equivTo, Bool.and_eq_true, Bool.not_eq_true'] at hc
            have := (hs.incomp y z x hc.1 hc.2 hx.2 hx.1).1
            rw [hyx] at this; cases this
        simp [hx, hy]
    · rfl

theorem stableSort_stable {α} {lt : α → α → Bool} (hs : StrictWeak lt) (z : α) (xs : List α) :
    (stableSort lt xs).filter (equivTo lt z) = xs.filter (equivTo lt z) := by
  induction xs with
  | nil => rfl
  | cons x xs ih =>
    rw [stableSort, sortInsert_stable hs, List.filter_cons, ih, List.filter_cons]

theorem sortInsert_map {α β} (f : α → β) (lt : β → β → Bool) (x : α) (xs : List α) :
    (sortInsert (fun a b => lt (f a) (f b)) x xs).map f = sortInsert lt (f x) (xs.map f) := by
  induction xs with
  | nil => rfl
  | cons y ys ih =>
    simp only [sortInsert, List.map_cons]
    split <;> simp [ih]

theorem stableSort_map {α β} (f : α → β) (lt : β → β → Bool) (xs : List α) :
    (stableSort (fun a b => lt (f a) (f b)) xs).map f = stableSort lt (xs.map f) := by
  induction xs with
  | nil => rfl
  | cons x xs ih => simp only [stableSort, sortInsert_map, ih, List.map_cons]

theorem members_pySort (lt : κ → κ → Bool) (key : E → κ) (rev : Bool) (st : Slots E) :
    members (pySort lt (fun s => key s.elem) rev st) = pySort lt key rev (members st) := by
  unfold pySort members
  split
  · rw [List.map_reverse, stableSort_map LSlot.elem (fun x y => lt (key x) (key y)), List.map_reverse]
  · rw [stableSort_map LSlot.elem (fun x y => lt (key x) (key y))]

theorem strictWeak_key {α κ} {lt : κ → κ → Bool} (hs : StrictWeak lt) (key : α → κ) : StrictWeak fun x y => lt (key x) (key y) :=
  ⟨fun _ => hs.irrefl _, fun _ _ _ => hs.trans _ _ _, fun _ _ _ => hs.incomp _ _ _⟩

/-! ### set -/

theorem setMembers_each {c : MemberClass V E} {as : List (Arg V E)} {es : List E} {bs : List Bool} (h : EachSet c as es bs) :
    setMembers c as = .ok (es, bs.all id) := by
  induction as generalizing es bs with
  | nil => cases es <;> cases bs <;> simp_all [EachSet, setMembers]
  | cons a as ih =>
    cases es with
    | nil => cases h
    | cons e es =>
      cases bs with
      | nil => cases h
      | cons b bs =>
        obtain ⟨h1, h2⟩ := h
        simp [setMembers, h1, ih h2]

theorem setMembers_ok {c : MemberClass V E} {as : List (Arg V E)} {es : List E} {b : Bool} (h : setMembers c as = .ok (es, b)) :
    ∃ bs, EachSet c as es bs ∧ b = bs.all id := by
  induction as generalizing es b with
  | nil => simp [setMembers] at h; obtain ⟨rfl, rfl⟩ := h; exact ⟨[], trivial, rfl⟩
  | cons a as ih =>
    unfold setMembers at h
    split at h
    · cases h
    · rename_i e b1 heq
      split at h
      · cases h
      · rename_i es' b' h'
        simp at h
        obtain ⟨rfl, rfl⟩ := h
        obtain ⟨bs, h1, rfl⟩ := ih h'
        exact ⟨b1 :: bs, ⟨heq, h1⟩, by simp⟩

end Flatland
