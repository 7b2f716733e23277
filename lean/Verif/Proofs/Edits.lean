import Verif.Spec.Edits
import Verif.Proofs.Lists
import Verif.Proofs.Mappings
import Verif.Proofs.HalfWay
/-! Proofs about calls on the elements of a tree. -/
namespace Flatland
open Flatland.Spec

/-! ### members stay of their kind -/
section generic
variable {V E κ : Type}

/-- what the class makes and sets is of the kind `P` -/
structure Closed (c : MemberClass V E) (P : E → Prop) : Prop where
  blank : P c.blank
  make : ∀ v e, c.make v = .ok e → P e
  set : ∀ e a, P e → P (c.set e a).1

variable {c : MemberClass V E} {P : E → Prop}

theorem asElement_all (hc : Closed c P) {a : Arg V E} (ha : ∀ x ∈ argElem a, P x) {e : E} (h : asElement c a = .ok e) : P e := by
  cases a with
  | val v => exact hc.make v e h
  | el x =>
    simp only [asElement, Except.ok.injEq] at h
    subst h
    exact ha x (by simp [argElem])

theorem asElements_all (hc : Closed c P) : ∀ {as : List (Arg V E)}, (∀ x ∈ as.flatMap argElem, P x) → ∀ {es : List E}, asElements c as = .ok es →
    ∀ e ∈ es, P e
  | [], _, es, h => by
    simp only [asElements, Except.ok.injEq] at h
    subst h
    simp
  | a :: as, ha, es, h => by
    simp only [asElements] at h
    cases h1 : asElement c a with
    | error er => rw [h1] at h; cases h
    | ok e =>
      rw [h1] at h
      cases h2 : asElements c as with
      | error er => rw [h2] at h; cases h
      | ok es' =>
        rw [h2] at h
        simp only [Except.ok.injEq] at h
        subst h
        intro x hx
        rcases List.mem_cons.1 hx with rfl | hx
        · exact asElement_all hc (fun y hy => ha y (by simp [hy])) h1
        · exact asElements_all hc (fun y hy => ha y (by rw [List.flatMap_cons]; exact List.mem_append_right _ hy)) h2 x hx

theorem iterElements_all (hc : Closed c P) {it : Iter V E} (ha : ∀ x ∈ iterElems it, P x) {es : List E} (h : iterElements c it = .ok es) : ∀ e ∈ es, P e := by
  unfold iterElements at h
  cases h1 : asElements c it.items with
  | error er => rw [h1] at h; cases h
  | ok es' =>
    rw [h1] at h
    cases h2 : it.fails with
    | some er => rw [h2] at h; cases h
    | none =>
      rw [h2] at h
      simp only [Except.ok.injEq] at h
      subst h
      exact asElements_all hc ha h1

theorem setMembers_all (hc : Closed c P) : ∀ {as : List (Arg V E)} {es : List E} {b : Bool}, setMembers c as = .ok (es, b) → ∀ e ∈ es, P e
  | [], es, b, h => by
    simp only [setMembers, Except.ok.injEq, Prod.mk.injEq] at h
    rw [← h.1]; simp
  | a :: as, es, b, h => by
    simp only [setMembers] at h
    have hp := hc.set c.blank a hc.blank
    cases h1 : c.set c.blank a with
    | mk e r =>
      rw [h1] at h hp
      cases r with
      | error er => cases h
      | ok b1 =>
        simp only at h
        cases h2 : setMembers c as with
        | error er => rw [h2] at h; cases h
        | ok r2 =>
          obtain ⟨es', b'⟩ := r2
          rw [h2] at h
          simp only [Except.ok.injEq, Prod.mk.injEq] at h
          rw [← h.1]
          intro x hx
          rcases List.mem_cons.1 hx with rfl | hx
          · exact hp
          · exact setMembers_all hc h2 x hx

theorem setItems_all (hc : Closed c P) {it : Option (Iter V E)} {es : List E} {b : Bool} (h : setItems c it = .ok (es, b)) : ∀ e ∈ es, P e := by
  cases it with
  | none => cases h
  | some it =>
    simp only [setItems] at h
    cases h1 : setMembers c it.items with
    | error er => rw [h1] at h; cases h
    | ok r =>
      rw [h1] at h
      cases h2 : it.fails with
      | some er => rw [h2] at h; cases h
      | none =>
        rw [h2] at h
        simp only [Except.ok.injEq] at h
        subst h
        exact setMembers_all hc h1

theorem mem_pyInsert {xs : List E} {i : Int} {x y : E} (h : y ∈ pyInsert xs i x) : y = x ∨ y ∈ xs := by
  unfold pyInsert at h
  rcases List.mem_append.1 h with h | h
  · exact .inr (List.mem_of_mem_take h)
  · rcases List.mem_cons.1 h with h | h
    · exact .inl h
    · exact .inr (List.mem_of_mem_drop h)

theorem mem_eraseIndexes {xs : List E} {is : List Nat} {y : E} (h : y ∈ eraseIndexes xs is) : y ∈ xs := by
  unfold eraseIndexes at h
  obtain ⟨i, _, hi⟩ := List.mem_filterMap.1 h
  split at hi
  · cases hi
  · exact List.mem_of_getElem? hi

theorem mem_pyDelSlice {xs ys : List E} {a b s : Option Int} (h : pyDelSlice xs a b s = .ok ys) {y : E} (hy : y ∈ ys) : y ∈ xs := by
  unfold pyDelSlice at h
  split at h
  · cases h
  · simp only [Except.ok.injEq] at h
    subst h
    exact mem_eraseIndexes hy

theorem mem_writeIndexes : ∀ {xs : List E} {is : List Nat} {ys : List E} {y : E}, y ∈ writeIndexes xs is ys → y ∈ xs ∨ y ∈ ys
  | xs, [], ys, y, h => by simp only [writeIndexes] at h; exact .inl h
  | xs, i :: is, [], y, h => by simp only [writeIndexes] at h; exact .inl h
  | xs, i :: is, z :: ys, y, h => by
    simp only [writeIndexes] at h
    rcases mem_writeIndexes h with h | h
    · rcases List.mem_or_eq_of_mem_set h with h | h
      · exact .inl h
      · exact .inr (by simp [h])
    · exact .inr (by simp [h])

theorem mem_pySetSlice {xs ys zs : List E} {a b s : Option Int} (h : pySetSlice xs a b s ys = .ok zs) {y : E} (hy : y ∈ zs) : y ∈ xs ∨ y ∈ ys := by
  unfold pySetSlice at h
  split at h
  · cases h
  · split at h
    · simp only [Except.ok.injEq] at h
      subst h
      rcases List.mem_append.1 hy with hy | hy
      · rcases List.mem_append.1 hy with hy | hy
        · exact .inl (List.mem_of_mem_take hy)
        · exact .inr hy
      · exact .inl (List.mem_of_mem_drop hy)
    · split at h
      · simp only [Except.ok.injEq] at h
        subst h
        exact mem_writeIndexes hy
      · cases h

theorem mem_pyRemove {eq : E → Bool} : ∀ {xs ys : List E}, pyRemove eq xs = some ys → ∀ {y : E}, y ∈ ys → y ∈ xs
  | [], ys, h, _, _ => by cases h
  | x :: xs, ys, h, y, hy => by
    simp only [pyRemove] at h
    split at h
    · simp only [Option.some.injEq] at h
      subst h
      exact List.mem_cons_of_mem _ hy
    · cases h1 : pyRemove eq xs with
      | none => rw [h1] at h; cases h
      | some zs =>
        rw [h1] at h
        simp only [Option.map_some, Option.some.injEq] at h
        subst h
        rcases List.mem_cons.1 hy with rfl | hy
        · simp
        · exact List.mem_cons_of_mem _ (mem_pyRemove h1 hy)

theorem pySort_permE (lt : κ → κ → Bool) (key : E → κ) (rev : Bool) (xs : List E) : (pySort lt key rev xs).Perm xs := by
  unfold pySort
  split
  · exact ((List.reverse_perm _).trans (stableSort_perm _ _)).trans (List.reverse_perm _)
  · exact stableSort_perm _ _

theorem seqExtendLoop_all (hc : Closed c P) : ∀ (as : List (Arg V E)), (∀ x ∈ as.flatMap argElem, P x) → ∀ (st : List E), (∀ e ∈ st, P e) →
    ∀ e ∈ (seqExtendLoop c st as).1, P e
  | [], _, st, h => h
  | a :: as, ha, st, h => by
    rw [seqExtendLoop]
    have hrest : ∀ x ∈ as.flatMap argElem, P x := fun y hy => ha y (by rw [List.flatMap_cons]; exact List.mem_append_right _ hy)
    simp only [seqAppend]
    cases h1 : asElement c a with
    | error er => exact h
    | ok e =>
      refine seqExtendLoop_all hc as hrest (st ++ [e]) ?_
      intro x hx
      rcases List.mem_append.1 hx with hx | hx
      · exact h x hx
      · rw [List.mem_singleton] at hx
        subst hx
        exact asElement_all hc (fun y hy => ha y (by simp [hy])) h1

theorem seqStep_all (hc : Closed c P) (op : SeqOp V E κ) (hs : ∀ er left, op = .sort (.compareFails er left) → ∀ st, (left st).Perm st)
    (hp : ∀ x ∈ seqPuts op, P x) (st : List E) (h : ∀ e ∈ st, P e) : ∀ e ∈ seqStep c st op, P e := by
  cases op with
  | append a =>
    simp only [seqStep, seqAppend]
    cases h1 : asElement c a with
    | error er => exact h
    | ok e =>
      intro x hx
      rcases List.mem_append.1 hx with hx | hx
      · exact h x hx
      · rw [List.mem_singleton] at hx
        subst hx
        exact asElement_all hc hp h1
  | extend it =>
    have := seqExtendLoop_all hc it.items hp st h
    simp only [seqStep, seqExtend]
    cases h1 : seqExtendLoop c st it.items with
    | mk st' r =>
      rw [h1] at this
      cases r with
      | error er => exact this
      | ok u => cases h2 : it.fails <;> exact this
  | insert i a =>
    simp only [seqStep, seqInsert]
    cases h1 : asElement c a with
    | error er => exact h
    | ok e =>
      intro x hx
      rcases mem_pyInsert hx with rfl | hx
      · exact asElement_all hc hp h1
      · exact h x hx
  | setItem i a =>
    simp only [seqStep, seqSetItem]
    cases h1 : asElement c a with
    | error er => exact h
    | ok e =>
      cases h2 : pyIndex st.length i with
      | none => exact h
      | some j =>
        intro x hx
        rcases List.mem_or_eq_of_mem_set hx with hx | rfl
        · exact h x hx
        · exact asElement_all hc hp h1
  | setSlice a b s it =>
    simp only [seqStep, seqSetSlice]
    cases h1 : iterElements c it with
    | error er => exact h
    | ok es =>
      simp only
      cases h2 : pySetSlice st a b s es with
      | error er => exact h
      | ok st' =>
        intro x hx
        rcases mem_pySetSlice h2 hx with hx | hx
        · exact h x hx
        · exact iterElements_all hc hp h1 x hx
  | remove a =>
    simp only [seqStep, seqRemove]
    cases h1 : asElement c a with
    | error er => exact h
    | ok e =>
      simp only
      cases h2 : pyRemove (fun m => c.eq m e) st with
      | none => exact h
      | some st' => exact fun x hx => h x (mem_pyRemove h2 hx)
  | delItem i =>
    simp only [seqStep]
    cases h2 : pyIndex st.length i with
    | none => exact h
    | some j => exact fun x hx => h x (List.mem_of_mem_eraseIdx hx)
  | pop i =>
    simp only [seqStep]
    cases h2 : pyIndex st.length i with
    | none => exact h
    | some j => exact fun x hx => h x (List.mem_of_mem_eraseIdx hx)
  | delSlice a b s =>
    simp only [seqStep]
    cases h2 : pyDelSlice st a b s with
    | error er => exact h
    | ok st' => exact fun x hx => h x (mem_pyDelSlice h2 hx)
  | reverse => exact fun x hx => h x (List.mem_reverse.1 hx)
  | sort r =>
    cases r with
    | done lt key rev => exact fun x hx => h x ((pySort_permE lt key rev st).mem_iff.1 hx)
    | keyFails er => exact h
    | compareFails er left => exact fun x hx => h x ((hs er left rfl st).mem_iff.1 hx)

theorem listExtendLoop_all (hc : Closed c P) : ∀ (as : List (Arg V E)), (∀ x ∈ as.flatMap argElem, P x) → ∀ (st : Slots E), (∀ e ∈ members st, P e) →
    ∀ e ∈ members (listExtendLoop c st as).1, P e
  | [], _, st, h => h
  | a :: as, ha, st, h => by
    rw [listExtendLoop]
    have hrest : ∀ x ∈ as.flatMap argElem, P x := fun y hy => ha y (by rw [List.flatMap_cons]; exact List.mem_append_right _ hy)
    simp only [listAppend]
    cases h1 : asElement c a with
    | error er => exact h
    | ok e =>
      refine listExtendLoop_all hc as hrest (st ++ [newSlot st e]) ?_
      intro x hx
      rw [members_append] at hx
      rcases List.mem_append.1 hx with hx | hx
      · exact h x hx
      · simp only [members, newSlot, List.map_cons, List.map_nil, List.mem_singleton] at hx
        subst hx
        exact asElement_all hc (fun y hy => ha y (by simp [hy])) h1

theorem listFill_members : ∀ (es : List E) (st : Slots E), members (listFill st es) = members st ++ es
  | [], st => by simp [listFill]
  | e :: es, st => by rw [listFill, listFill_members es]; simp [members, newSlot]

theorem members_mono {st st' : Slots E} (h : ∀ s ∈ st', s ∈ st) : ∀ e ∈ members st', e ∈ members st := by
  intro e he
  obtain ⟨s, hs, rfl⟩ := List.mem_map.1 he
  exact List.mem_map.2 ⟨s, h s hs, rfl⟩

theorem listStep_all (hc : Closed c P) (op : ListOp V E κ) (hs : Compares op)
    (hp : ∀ x ∈ listPuts op, P x) (st : Slots E) (h : ∀ e ∈ members st, P e) : ∀ e ∈ members (listStep c st op), P e := by
  cases op with
  | append a =>
    have := listExtendLoop_all hc [a] (by simpa [listPuts] using hp) st h
    simp only [listStep]
    simp only [listExtendLoop] at this
    cases h1 : listAppend c st a with
    | mk st' r => rw [h1] at this; cases r <;> exact this
  | extend it =>
    have := listExtendLoop_all hc it.items hp st h
    simp only [listStep, listExtend]
    cases h1 : listExtendLoop c st it.items with
    | mk st' r =>
      rw [h1] at this
      cases r with
      | error er => exact this
      | ok u => cases h2 : it.fails <;> exact this
  | insert i a =>
    simp only [listStep, listInsert]
    cases h1 : asElement c a with
    | error er => exact h
    | ok e =>
      simp only [members_renumber, members_pyInsert]
      intro x hx
      rcases mem_pyInsert hx with rfl | hx
      · exact asElement_all hc hp h1
      · exact h x hx
  | setItem i a =>
    simp only [listStep, listSetItem]
    cases h2 : pyIndex st.length i with
    | none => exact h
    | some j =>
      simp only
      cases h3 : st[j]? with
      | none => exact h
      | some s =>
        simp only
        have hset : ∀ (e' : E), P e' → ∀ e ∈ members (st.set j ⟨s.name, e'⟩), P e := by
          intro e' he' e he
          simp only [members, List.map_set] at he
          rcases List.mem_or_eq_of_mem_set he with he | rfl
          · exact h e he
          · exact he'
        have hP := hc.set s.elem a (h s.elem (List.mem_map.2 ⟨s, List.mem_of_getElem? h3, rfl⟩))
        cases h4 : c.set s.elem a with
        | mk e' r =>
          rw [h4] at hP
          cases r <;> exact hset e' hP
  | setSlice a b s it =>
    simp only [listStep, listSetSlice]
    cases h1 : iterElements c it with
    | error er => exact h
    | ok es =>
      simp only
      cases h2 : pySetSlice st a b s (es.map (newSlot st)) with
      | error er => exact h
      | ok st' =>
        simp only [members_renumber]
        intro x hx
        obtain ⟨sl, hsl, rfl⟩ := List.mem_map.1 hx
        rcases mem_pySetSlice h2 hsl with hm | hm
        · exact h _ (List.mem_map.2 ⟨sl, hm, rfl⟩)
        · obtain ⟨e, he, rfl⟩ := List.mem_map.1 hm
          exact iterElements_all hc hp h1 e he
  | delItem i =>
    simp only [listStep, listDelItem]
    cases h2 : pyIndex st.length i with
    | none => exact h
    | some j =>
      simp only [members_renumber]
      exact fun x hx => h x (members_mono (fun s hs => List.mem_of_mem_eraseIdx hs) x hx)
  | delSlice a b s =>
    simp only [listStep, listDelSlice]
    cases h2 : pyDelSlice st a b s with
    | error er => exact h
    | ok st' =>
      simp only [members_renumber]
      exact fun x hx => h x (members_mono (fun s hs => mem_pyDelSlice h2 hs) x hx)
  | pop i =>
    simp only [listStep, listPop]
    cases h2 : pyIndex st.length i with
    | none => exact h
    | some j =>
      simp only
      cases h3 : st[j]? with
      | none => exact h
      | some s =>
        simp only [members_renumber]
        exact fun x hx => h x (members_mono (fun s hs => List.mem_of_mem_eraseIdx hs) x hx)
  | remove a =>
    simp only [listStep, listRemove]
    cases h1 : asElement c a with
    | error er => exact h
    | ok e =>
      simp only
      cases h2 : pyRemove (fun s => c.eq s.elem e) st with
      | none => exact h
      | some st' =>
        simp only [members_renumber]
        exact fun x hx => h x (members_mono (fun s hs => mem_pyRemove h2 hs) x hx)
  | sort r =>
    cases r with
    | done lt key rev =>
      simp only [listStep, listSort, members_renumber]
      exact fun x hx => h x (members_mono (fun s hs => (pySort_permE lt key rev st).mem_iff.1 hs) x hx)
    | keyFails er => exact h
    | compareFails er left => exact hs.elim
  | reverse =>
    simp only [listStep, listReverse, members_renumber]
    exact fun x hx => h x (members_mono (fun s hs => List.mem_reverse.1 hs) x hx)
  | set it =>
    simp only [listStep, listSet, listDelSlice_all]
    cases h1 : setItems c it with
    | error er =>
      have : ∀ e ∈ members ([] : Slots E), P e := by simp [members]
      cases er <;> exact this
    | ok r =>
      obtain ⟨es, b⟩ := r
      refine listExtendLoop_all hc _ ?_ [] (by simp [members])
      intro x hx
      obtain ⟨a, ha, hxa⟩ := List.mem_flatMap.1 hx
      obtain ⟨e, he, rfl⟩ := List.mem_map.1 ha
      simp only [argElem, List.mem_singleton] at hxa
      subst hxa
      exact setItems_all hc h1 _ he
  | fill es =>
    simp only [listStep, listDelSlice_all, listFill_members]
    simpa [members, listPuts] using hp

end generic

/-! ### children stay of their kind -/
section mapping
variable {K V E : Type} [DecidableEq K]

/-- every child is of the kind of its key -/
def KidsOk (Q : K → E → Prop) (d : PyDict K E) : Prop := ∀ k e, (k, e) ∈ d → Q k e

/-- what the fields' classes make and set is of the kind of the key -/
structure FieldsClosed (c : MapClass K V E) (Q : K → E → Prop) : Prop where
  cls : ∀ f ∈ c.fields, Closed f.cls (Q f.name)
  setDefault : ∀ f ∈ c.fields, ∀ e, Q f.name e → Q f.name (f.setDefault e).1
  fromDefaults : ∀ f ∈ c.fields, ∀ e, f.fromDefaults = .ok e → Q f.name e

variable {c : MapClass K V E} {Q : K → E → Prop}

theorem mem_dictPut_kid {d : PyDict K E} {k k' : K} {e e' : E} (h : (k', e') ∈ dictPut d k e) : (k' = k ∧ e' = e) ∨ (k', e') ∈ d := by
  induction d with
  | nil => simp only [dictPut, List.mem_singleton, Prod.mk.injEq] at h; exact .inl h
  | cons p d ih =>
    obtain ⟨k1, e1⟩ := p
    simp only [dictPut] at h
    split at h
    · rename_i hk
      rcases List.mem_cons.1 h with h | h
      · simp only [Prod.mk.injEq] at h; exact .inl ⟨h.1.trans hk, h.2⟩
      · exact .inr (List.mem_cons_of_mem _ h)
    · rcases List.mem_cons.1 h with h | h
      · exact .inr (by simp [h])
      · rcases ih h with h | h
        · exact .inl h
        · exact .inr (List.mem_cons_of_mem _ h)

theorem mem_dictDel_kid {d : PyDict K E} {k : K} {p : K × E} (h : p ∈ dictDel d k) : p ∈ d := by
  induction d with
  | nil => simp [dictDel] at h
  | cons q d ih =>
    obtain ⟨k1, e1⟩ := q
    simp only [dictDel] at h
    split at h
    · exact List.mem_cons_of_mem _ h
    · rcases List.mem_cons.1 h with h | h
      · simp [h]
      · exact List.mem_cons_of_mem _ (ih h)

theorem mem_of_dictGet {d : PyDict K E} {k : K} {e : E} (h : dictGet d k = some e) : (k, e) ∈ d := by
  induction d with
  | nil => simp [dictGet] at h
  | cons q d ih =>
    obtain ⟨k1, e1⟩ := q
    simp only [dictGet] at h
    split at h
    · rename_i hk
      simp only [Option.some.injEq] at h
      simp [hk, h]
    · exact List.mem_cons_of_mem _ (ih h)

theorem kidsOk_put {d : PyDict K E} (h : KidsOk Q d) {k : K} {e : E} (he : Q k e) : KidsOk Q (dictPut d k e) := by
  intro k' e' h'
  rcases mem_dictPut_kid h' with ⟨rfl, rfl⟩ | h'
  · exact he
  · exact h k' e' h'

theorem kidsOk_del {d : PyDict K E} (h : KidsOk Q d) (k : K) : KidsOk Q (dictDel d k) := fun k' e' h' => h k' e' (mem_dictDel_kid h')

theorem kidsOk_resetLoop (hc : FieldsClosed c Q) (m : MapMode) : ∀ (fs : List (Field K V E)), (∀ f ∈ fs, f ∈ c.fields) → ∀ (d : PyDict K E), KidsOk Q d →
    KidsOk Q (resetLoop m fs d)
  | [], _, d, h => h
  | f :: fs, hf, d, h => by
    rw [resetLoop]
    refine kidsOk_resetLoop hc m fs (fun g hg => hf g (by simp [hg])) _ ?_
    split
    · exact kidsOk_put h (hc.cls f (hf f (by simp))).blank
    · exact h

theorem kidsOk_reset (hc : FieldsClosed c Q) (d : PyDict K E) (h : KidsOk Q d) : KidsOk Q (mapReset c d) := by
  have h0 : KidsOk Q ([] : PyDict K E) := by intro k e h; simp at h
  unfold mapReset
  split
  · exact kidsOk_resetLoop hc _ _ (fun _ hf => hf) d h
  · exact kidsOk_resetLoop hc _ _ (fun _ hf => hf) [] h0

theorem kidsOk_setChild (hc : FieldsClosed c Q) {d : PyDict K E} (h : KidsOk Q d) {k : K} {f : Field K V E} (hf : fieldFor c k = some f) {e : E} (he : Q k e)
    (a : Arg V E) : KidsOk Q (setChild d k f e a).1 := by
  obtain ⟨h1, rfl⟩ := fieldFor_some hf
  simp only [setChild]
  exact kidsOk_put h ((hc.cls f h1).set e a he)

/-- an element put in under a key is of the key's kind -/
def PutOk (c : MapClass K V E) (Q : K → E → Prop) (k : K) (a : Arg V E) : Prop :=
  ∀ x ∈ argElem a, ∀ f ∈ c.fields, f.name = k → f.isInstance x = true → Q k x

theorem kidsOk_setItem (hc : FieldsClosed c Q) {d : PyDict K E} (h : KidsOk Q d) (k : K) (a : Arg V E) (ha : PutOk c Q k a) :
    KidsOk Q (mapSetItem c d k a).1 := by
  unfold mapSetItem
  split
  · rename_i f e _ hf he
    exact kidsOk_setChild hc h hf (h k e (mem_of_dictGet he)) a
  · exact h
  · exact h
  · rename_i f hf _ _
    obtain ⟨h1, rfl⟩ := fieldFor_some hf
    split
    · rename_i x
      split
      · rename_i hi
        exact kidsOk_put h (ha x (by simp [argElem]) f h1 rfl hi)
      · have hs := (hc.cls f h1).set f.cls.blank (.el x) (hc.cls f h1).blank
        split
        · rename_i e r heq
          rw [heq] at hs
          exact kidsOk_put h hs
        · exact h
    · split
      · rename_i heq
        exact kidsOk_put h ((hc.cls f h1).make _ _ heq)
      · exact h
  · rename_i f e hf he _
    obtain ⟨h1, rfl⟩ := fieldFor_some hf
    split
    · rename_i x
      split
      · rename_i hi
        exact kidsOk_put h (ha x (by simp [argElem]) f h1 rfl hi)
      · exact kidsOk_setChild hc h hf (h _ e (mem_of_dictGet he)) _
    · exact kidsOk_setChild hc h hf (h _ e (mem_of_dictGet he)) _

theorem kidsOk_updateLoop (hc : FieldsClosed c Q) : ∀ (items : List (K × Arg V E)), (∀ p ∈ items, PutOk c Q p.1 p.2) → ∀ (d : PyDict K E), KidsOk Q d →
    KidsOk Q (updateLoop c d items).1
  | [], _, d, h => h
  | (k, a) :: items, hp, d, h => by
    rw [updateLoop]
    have h1 := kidsOk_setItem hc h k a (hp (k, a) (by simp))
    cases hs : mapSetItem c d k a with
    | mk d' r =>
      rw [hs] at h1
      cases r with
      | error er => exact h1
      | ok u => exact kidsOk_updateLoop hc items (fun p hp' => hp p (by simp [hp'])) d' h1

theorem kidsOk_setLoop (hc : FieldsClosed c Q) (pol : MapPolicy) : ∀ (items : List (K × Arg V E)) (d : PyDict K E) (seen : List K) (conv : Bool), KidsOk Q d →
    KidsOk Q (setLoop c pol d seen conv items).1
  | [], d, seen, conv, h => h
  | (k, a) :: items, d, seen, conv, h => by
    rw [setLoop]
    cases hf : fieldFor c k with
    | none =>
      simp only
      split
      · exact kidsOk_setLoop hc pol items d seen conv h
      · exact h
    | some f =>
      simp only
      have he : Q k ((dictGet d k).getD f.cls.blank) := by
        obtain ⟨h1, rfl⟩ := fieldFor_some hf
        cases hg : dictGet d f.name with
        | none => exact (hc.cls f h1).blank
        | some e => exact h _ e (mem_of_dictGet hg)
      have h1 := kidsOk_setChild hc h hf he a
      cases hs : setChild d k f ((dictGet d k).getD f.cls.blank) a with
      | mk d' r =>
        rw [hs] at h1
        cases r with
        | error er => exact h1
        | ok b => exact kidsOk_setLoop hc pol items d' _ _ h1

theorem kidsOk_set (hc : FieldsClosed c Q) (d : PyDict K E) (h : KidsOk Q d) (p : Pairs K V E) (pol : MapPolicy) : KidsOk Q (mapSet c d p pol).1 := by
  unfold mapSet
  split
  · exact h
  · rename_i items fails
    have h1 := kidsOk_setLoop hc pol items (mapReset c d) [] true (kidsOk_reset hc d h)
    cases hs : setLoop c pol (mapReset c d) [] true items with
    | mk d' r =>
      rw [hs] at h1
      cases r with
      | error er => exact h1
      | ok b =>
        simp only
        split
        · exact h1
        · split <;> exact h1

theorem kidsOk_defaultChildren (hc : FieldsClosed c Q) : ∀ (d : PyDict K E), KidsOk Q d → KidsOk Q (defaultChildren c d).1
  | [], h => h
  | (k, e) :: d, h => by
    have hd : KidsOk Q d := fun k' e' h' => h k' e' (List.mem_cons_of_mem _ h')
    have key : ∀ (e' : E) (d' : PyDict K E), Q k e' → KidsOk Q d' → KidsOk Q ((k, e') :: d') := by
      intro e' d' he' hd' k'' e'' h''
      rcases List.mem_cons.1 h'' with h'' | h''
      · simp only [Prod.mk.injEq] at h''; rw [h''.1, h''.2]; exact he'
      · exact hd' _ _ h''
    rw [defaultChildren]
    cases hf : fieldFor c k with
    | none => exact h
    | some f =>
      obtain ⟨h1, rfl⟩ := fieldFor_some hf
      have hs := hc.setDefault f h1 e (h _ e (by simp))
      simp only
      cases hr : f.setDefault e with
      | mk e' r =>
        rw [hr] at hs
        cases r with
        | error er => exact key e' d hs hd
        | ok u => exact key e' _ hs (kidsOk_defaultChildren hc d hd)

theorem kidsOk_defaultRequired (hc : FieldsClosed c Q) : ∀ (fs : List (Field K V E)), (∀ f ∈ fs, f ∈ c.fields) → ∀ (d : PyDict K E), KidsOk Q d →
    KidsOk Q (defaultRequired fs d).1
  | [], _, d, h => h
  | f :: fs, hf, d, h => by
    rw [defaultRequired]
    split
    · exact kidsOk_defaultRequired hc fs (fun g hg => hf g (by simp [hg])) d h
    · cases hr : f.fromDefaults with
      | error er => exact h
      | ok e => exact kidsOk_defaultRequired hc fs (fun g hg => hf g (by simp [hg])) _ (kidsOk_put h (hc.fromDefaults f (hf f (by simp)) e hr))

theorem kidsOk_step (hc : FieldsClosed c Q) (op : MapOp K V E) (hp : ∀ p ∈ mapPuts op, ∀ f ∈ c.fields, f.name = p.1 → f.isInstance p.2 = true → Q p.1 p.2)
    (hf : ∀ eff, op ≠ .setFlat eff) (d : PyDict K E) (h : KidsOk Q d) : KidsOk Q (mapStep c d op) := by
  cases op with
  | setItem k a => exact kidsOk_setItem hc h k a fun x hx => hp (k, x) (List.mem_map.2 ⟨x, hx, rfl⟩)
  | delItem k =>
    simp only [mapStep, mapDelItem]
    repeat' split
    all_goals first | exact h | exact kidsOk_del h k
  | clear =>
    simp only [mapStep, mapClear]
    split
    · exact h
    · exact kidsOk_reset hc d h
  | popitem =>
    simp only [mapStep, mapPopitem]
    split <;> exact h
  | pop k =>
    simp only [mapStep, mapPop]
    repeat' split
    all_goals first | exact h | exact kidsOk_del h k
  | update p kw =>
    simp only [mapStep, mapUpdate]
    cases p with
    | refused er => exact h
    | seq items fails =>
      simp only
      have hput : ∀ p ∈ items ++ kw, PutOk c Q p.1 p.2 := by
        intro p hp' x hx
        exact hp (p.1, x) (List.mem_flatMap.2 ⟨p, hp', List.mem_map.2 ⟨x, hx, rfl⟩⟩)
      have h1 := kidsOk_updateLoop hc items (fun p hp' => hput p (List.mem_append_left _ hp')) d h
      cases hs : updateLoop c d items with
      | mk d' r =>
        rw [hs] at h1
        cases r with
        | error er => exact h1
        | ok u =>
          simp only
          split
          · exact h1
          · exact kidsOk_updateLoop hc kw (fun p hp' => hput p (List.mem_append_right _ hp')) d' h1
  | setdefault k a =>
    simp only [mapStep, mapSetdefault]
    split
    · exact h
    · cases hf : fieldFor c k with
      | none => exact h
      | some f =>
        simp only
        cases hg : dictGet d k with
        | none =>
          obtain ⟨h1, rfl⟩ := fieldFor_some hf
          exact kidsOk_setChild hc h hf (hc.cls f h1).blank a
        | some e =>
          simp only
          split
          · exact kidsOk_setChild hc h hf (h k e (mem_of_dictGet hg)) a
          · exact h
  | set p pol => exact kidsOk_set hc d h p pol
  | setFlat eff => exact absurd rfl (hf eff)
  | setDefault =>
    simp only [mapStep, mapSetDefault]
    split
    · exact kidsOk_set hc d h _ _
    · split
      · exact kidsOk_defaultChildren hc d h
      · exact kidsOk_reset hc d h
      · exact kidsOk_defaultRequired hc _ (fun _ hf => hf) _ (kidsOk_reset hc d h)

end mapping

end Flatland
