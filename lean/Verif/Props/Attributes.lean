import Verif.Proofs.Attributes
/-! C72: what attributes of elements and of their classes read as, after any program. -/
namespace Flatland
open Spec

/-- Reading an attribute of an element: what was assigned to the element last and not deleted since, else what was assigned to its class or the nearest
base, else what is computed; AttributeError otherwise. -/
theorem C72_read (g : Getters) (root : PyDict PStr Slot) (ops : List AttrOp) (i : Nat) (k : PStr) (hl : i < (ran g root ops).1.objs.length) :
    (attrStep g (ran g root ops).1 (.get i k)).2 = (readObject g root (ran g root ops).1 (ran g root ops).2 i k).map .val := by
  have hi := inv_run g ops _ _ (inv_start root)
  simp only [ran] at hl ⊢
  simp only [attrStep, if_pos hl, (getAttr_spec g hi hl k).1]

/-- Reading an attribute of a class. -/
theorem C72_read_class (g : Getters) (root : PyDict PStr Slot) (ops : List AttrOp) (c : Nat) (k : PStr) (hc : c < (ran g root ops).1.classes.length) :
    (attrStep g (ran g root ops).1 (.getClass c k)).2 = readClass g root (ran g root ops).1 (ran g root ops).2 c k := by
  have hi := inv_run g ops _ _ (inv_start root)
  simp only [ran] at hc ⊢
  simp only [attrStep, if_pos hc, getClass_spec g hi hc k]

/-- An operation that raises changes nothing, and reading changes nothing but a lazy property not yet computed. -/
theorem C72_refused_unchanged (g : Getters) (root : PyDict PStr Slot) (ops : List AttrOp) (op : AttrOp) (e : PyErr)
    (h : (attrStep g (ran g root ops).1 op).2 = .error e) : (attrStep g (ran g root ops).1 op).1 = (ran g root ops).1 := by
  have hi := inv_run g ops _ _ (inv_start root)
  simp only [ran] at h ⊢
  generalize attrRun g (attrStart root) [] ops = r at hi h ⊢
  obtain ⟨w, hs⟩ := r
  cases op with
  | subclass c ov =>
    simp only [attrStep] at h ⊢
    split at h
    · rename_i hc
      rw [if_pos hc]
      split at h
      · cases h
      · rfl
    · rename_i hc
      rw [if_neg hc]
  | make c kw =>
    simp only [attrStep] at h ⊢
    split at h
    · rename_i hc
      rw [if_pos hc]
      split at h
      · cases h
      · rfl
    · rename_i hc
      rw [if_neg hc]
  | get i k =>
    simp only [attrStep] at h ⊢
    split at h
    · rename_i hl
      rw [if_pos hl]
      obtain ⟨h1, h2⟩ := getAttr_spec g hi hl k
      simp only [] at h ⊢
      rw [h2]
      split
      · rename_i hz
        obtain ⟨hz, ho⟩ := hz
        simp only [isLazy] at hz
        split at hz
        · rename_i hr
          have hcv : classValue root hs (madeOf hs i) k = none := by simpa using hz
          simp only [] at h1
          rw [h1] at h
          simp only [readObject, ho, hcv, fallback, hr, Except.map] at h
          cases h
        · cases hz
      · rfl
    · rename_i hl
      rw [if_neg hl]
  | set i k v =>
    simp only [attrStep] at h ⊢
    split at h
    · cases h
    · rename_i hl
      rw [if_neg hl]
  | del i k =>
    simp only [attrStep, delAttr] at h ⊢
    split at h
    · rename_i hl
      rw [if_pos hl]
      split at h
      · cases h
      · rfl
    · rename_i hl
      rw [if_neg hl]
  | getClass c k => rfl
  | setClass c k v =>
    simp only [attrStep] at h ⊢
    split at h
    · cases h
    · rename_i hl
      rw [if_neg hl]

/-- Deleting: only a value of the element's own can be deleted; a class default, a computed value or a method cannot. -/
theorem C72_delete (g : Getters) (root : PyDict PStr Slot) (ops : List AttrOp) (i : Nat) (k : PStr) (hl : i < (ran g root ops).1.objs.length) :
    (objectOwn root (ran g root ops).2 i k ≠ none → (attrStep g (ran g root ops).1 (.del i k)).2 = .ok .done) ∧
    (objectOwn root (ran g root ops).2 i k = none → (attrStep g (ran g root ops).1 (.del i k)).2 = .error .attribute) :=
  del_spec g (inv_run g ops _ _ (inv_start root)) hl k

/-- Making an element with keywords: refused with TypeError if one of them is not an attribute of elements of the class. -/
theorem C72_keywords (g : Getters) (root : PyDict PStr Slot) (ops : List AttrOp) (c : Nat) (hc : c < (ran g root ops).1.classes.length)
    (kw : List (PStr × PyVal)) :
    ((∀ p ∈ kw, TakesKeyword root (ran g root ops).2 c p.1) →
      (attrStep g (ran g root ops).1 (.make c kw)).2 = .ok (.made (ran g root ops).1.objs.length)) ∧
    ((¬ ∀ p ∈ kw, TakesKeyword root (ran g root ops).2 c p.1) → (attrStep g (ran g root ops).1 (.make c kw)).2 = .error .type) :=
  make_spec g (inv_run g ops _ _ (inv_start root)) hc kw

/-- `using`: refused with TypeError if one of the names is not an attribute of the class. -/
theorem C72_using (g : Getters) (root : PyDict PStr Slot) (ops : List AttrOp) (c : Nat) (hc : c < (ran g root ops).1.classes.length)
    (ov : List (PStr × PyVal)) :
    ((∀ p ∈ ov, TakesOverride root (ran g root ops).2 c p.1) →
      (attrStep g (ran g root ops).1 (.subclass c ov)).2 = .ok (.made (ran g root ops).1.classes.length)) ∧
    ((¬ ∀ p ∈ ov, TakesOverride root (ran g root ops).2 c p.1) → (attrStep g (ran g root ops).1 (.subclass c ov)).2 = .error .type) :=
  using_spec g (inv_run g ops _ _ (inv_start root)) hc ov

/-- A lazy property, once read, reads the same until it is assigned or deleted, whatever else happens. -/
theorem C72_lazy_once (g : Getters) (root : PyDict PStr Slot) (ops : List AttrOp) (i : Nat) (k : PStr) (hl : i < (ran g root ops).1.objs.length)
    (hz : isLazy root (ran g root ops).2 (madeOf (ran g root ops).2 i) k = true) (more : List AttrOp) (hs : ∀ u, .set i k u ∉ more)
    (hd : .del i k ∉ more) :
    ∃ v, (attrStep g (ran g root ops).1 (.get i k)).2 = .ok (.val v) ∧
      (attrStep g (attrRun g (attrStep g (ran g root ops).1 (.get i k)).1
        ((.get i k, (attrStep g (ran g root ops).1 (.get i k)).2) :: (ran g root ops).2) more).1 (.get i k)).2 = .ok (.val v) := by
  have hi := inv_run g ops _ _ (inv_start root)
  simp only [ran] at hl hz ⊢
  generalize attrRun g (attrStart root) [] ops = r at hi hl hz ⊢
  obtain ⟨w, h⟩ := r
  simp only [] at hi hl hz ⊢
  obtain ⟨h1, h2⟩ := getAttr_spec g hi hl k
  have hr : ∃ v, readObject g root w h i k = .ok v := by
    simp only [isLazy] at hz
    split at hz
    · rename_i hr
      have hcv : classValue root h (madeOf h i) k = none := by simpa using hz
      simp only [readObject, hcv, fallback, hr]
      cases objectOwn root h i k with
      | some v => exact ⟨v, rfl⟩
      | none => exact ⟨_, rfl⟩
    · cases hz
  obtain ⟨v, hv⟩ := hr
  have hget : (attrStep g w (.get i k)).2 = .ok (.val v) := by
    simp only [attrStep, if_pos hl, h1, hv, Except.map]
  refine ⟨v, hget, ?_⟩
  have hi' := inv_step g hi (.get i k)
  have hl' := Nat.lt_of_lt_of_le hl (len_step g w (.get i k))
  have ho : objectOwn root ((.get i k, (attrStep g w (.get i k)).2) :: h) i k = some v := by
    rw [hget]
    simp only [objectOwn, hz, and_self, ↓reduceIte]
  obtain ⟨ho', hl''⟩ := own_run g more _ _ hi' hl' ho hs hd
  have hi'' := inv_run g more _ _ hi'
  have h3 := (getAttr_spec g hi'' hl'' k).1
  simp only [readObject, ho'] at h3
  show (if _ then _ else _ : AWorld × Except PyErr AttrGot).2 = _
  rw [if_pos hl'']
  simp only [h3, Except.map]

/-- The label of an element: its own, else that of its class or the nearest base, else the element's name, else the name of the class. -/
theorem C72_label (ops : List AttrOp) (i : Nat) (hl : i < (ran (labelGetters "name".toList) elementRoot ops).1.objs.length) :
    let h := (ran (labelGetters "name".toList) elementRoot ops).2
    (attrStep (labelGetters "name".toList) (ran (labelGetters "name".toList) elementRoot ops).1 (.get i "label".toList)).2 =
      .ok (.val (firstGiven [objectOwn elementRoot h i "label".toList, classValue elementRoot h (madeOf h i) "label".toList,
        objectOwn elementRoot h i "name".toList, classValue elementRoot h (madeOf h i) "name".toList])) := by
  simp only []
  rw [C72_read _ _ _ _ _ hl]
  have hi := inv_run (labelGetters "name".toList) ops _ _ (inv_start elementRoot)
  simp only [ran] at hl ⊢
  generalize attrRun (labelGetters "name".toList) (attrStart elementRoot) [] ops = r at hi hl ⊢
  obtain ⟨w, h⟩ := r
  simp only [] at hi hl ⊢
  have hn := (getAttr_spec ⟨fun _ _ _ => PyVal.none, fun _ _ _ => PyVal.none⟩ hi hl "name".toList).1
  obtain ⟨_, ht, hc⟩ := vars_spec hi hl
  have hcn := classValue_root hi.cls (k := "name".toList) (v := .none) (by decide +kernel) (madeOf h i) (by rw [← ht]; exact hc)
  have hroot : dictGet elementRoot "label".toList = some .computed := by decide +kernel
  unfold readObject
  cases objectOwn elementRoot h i "label".toList with
  | some v => rfl
  | none =>
    simp only []
    cases classValue elementRoot h (madeOf h i) "label".toList with
    | some v => rfl
    | none =>
      simp only [fallback, hroot, labelGetters, hn, readObject, firstGiven]
      cases objectOwn elementRoot h i "name".toList with
      | some v => rfl
      | none =>
        simp only []
        cases hcv : classValue elementRoot h (madeOf h i) "name".toList with
        | some v => rfl
        | none => exact absurd hcv hcn

/-- The label of a class: its own or that of the nearest base, else its name. -/
theorem C72_label_class (ops : List AttrOp) (c : Nat) (hc : c < (ran (labelGetters "name".toList) elementRoot ops).1.classes.length) :
    let h := (ran (labelGetters "name".toList) elementRoot ops).2
    (attrStep (labelGetters "name".toList) (ran (labelGetters "name".toList) elementRoot ops).1 (.getClass c "label".toList)).2 =
      .ok (.val (firstGiven [classValue elementRoot h c "label".toList, classValue elementRoot h c "name".toList])) := by
  simp only []
  rw [C72_read_class _ _ _ _ _ hc]
  have hi := inv_run (labelGetters "name".toList) ops _ _ (inv_start elementRoot)
  simp only [ran] at hc ⊢
  generalize attrRun (labelGetters "name".toList) (attrStart elementRoot) [] ops = r at hi hc ⊢
  obtain ⟨w, h⟩ := r
  simp only [] at hi hc ⊢
  have hn := getClass_spec ⟨fun _ _ _ => PyVal.none, fun _ _ _ => PyVal.none⟩ hi hc "name".toList
  have hcn := classValue_root hi.cls (k := "name".toList) (v := .none) (by decide +kernel) c hc
  have hroot : dictGet elementRoot "label".toList = some .computed := by decide +kernel
  unfold readClass
  cases classValue elementRoot h c "label".toList with
  | some v => rfl
  | none =>
    simp only [hroot, labelGetters, hn, readClass, firstGiven]
    cases hcv : classValue elementRoot h c "name".toList with
    | some v => rfl
    | none => exact absurd hcv hcn

/-- The methods that make classes are no attributes of elements, and no keywords of theirs. -/
theorem C72_cloner_hidden (g : Getters) (root : PyDict PStr Slot) (ops : List AttrOp) (i : Nat) (k : PStr) (hl : i < (ran g root ops).1.objs.length)
    (hr : dictGet root k = some .cloner) (hno : objectOwn root (ran g root ops).2 i k = none)
    (hnc : classValue root (ran g root ops).2 (madeOf (ran g root ops).2 i) k = none) :
    (attrStep g (ran g root ops).1 (.get i k)).2 = .error .attribute := by
  rw [C72_read g root ops i k hl, readObject, hno, hnc, fallback, hr]
  rfl

section Examples

private abbrev nm : PStr := "name".toList
private abbrev lb : PStr := "label".toList

/-- a field class `String.named('a')`, an element of it, renamed; a class with a label; an element with a label, deleted again -/
private def prog : List AttrOp :=
  [.subclass 0 [(nm, .str "a".toList)], .make 1 [], .set 0 nm (.str "b".toList), .subclass 1 [(lb, .str "L".toList)], .make 2 [(lb, .str "M".toList)],
    .make 2 [], .del 1 lb, .make 1 [("using".toList, .none)]]

example : (ran (labelGetters nm) elementRoot prog).1.objs.length = 3 := by decide +kernel

/-- the labels: the new name, the class label after the deletion, the class label -/
example : [0, 1, 2].map (fun i => (attrStep (labelGetters nm) (ran (labelGetters nm) elementRoot prog).1 (.get i lb)).2) =
    [.ok (.val (.str "b".toList)), .ok (.val (.str "L".toList)), .ok (.val (.str "L".toList))] := by decide +kernel

example : [0, 1, 2].map (fun c => (attrStep (labelGetters nm) (ran (labelGetters nm) elementRoot prog).1 (.getClass c lb)).2) =
    [.ok (.val .none), .ok (.val (.str "a".toList)), .ok (.val (.str "L".toList))] := by decide +kernel

/-- the constructor refuses `using` as a keyword -/
example : ((ran (labelGetters nm) elementRoot prog).2.head?.map (·.2)) = some (.error .type) := by decide +kernel

/-- `using` as an override is accepted -/
example : (attrStep (labelGetters nm) (ran (labelGetters nm) elementRoot prog).1 (.subclass 1 [("using".toList, .none)])).2 = .ok (.made 3) := by decide +kernel

/-- a lazy property counting the elements: its first value stays -/
private def counting : Getters := ⟨fun _ w _ => .int w.objs.length, fun _ _ _ => .none⟩
private def lazyRoot : PyDict PStr Slot := [("n".toList, .lazy)]

example : isLazy lazyRoot (ran counting lazyRoot [.make 0 []]).2 (madeOf (ran counting lazyRoot [.make 0 []]).2 0) "n".toList = true := by decide +kernel

example : (ran counting lazyRoot [.make 0 [], .get 0 "n".toList, .make 0 [], .get 0 "n".toList, .del 0 "n".toList, .get 0 "n".toList]).2.map (·.2) =
    [.ok (.val (.int 2)), .ok .done, .ok (.val (.int 1)), .ok (.made 1), .ok (.val (.int 1)), .ok (.made 0)] := by decide +kernel

end Examples

end Flatland
