import Verif.Proofs.Validators
import Verif.Props.Messages
import Verif.Proofs.Equality
/-! C40–C44: the supplied validators. -/
namespace Flatland
open Flatland.Spec

section
variable [Runtime]

/-- C40. Each validator passes exactly when its documented relation holds, and otherwise fails with its documented message. -/
theorem C40_exact (e : Checked) (c : Check) (h : Applies e c) :
    (Meets e c → runValidator e c = .ok .none) ∧ (¬ Meets e c → runValidator e c = .ok (some (failureKey c).toList)) := by
  classical
  cases c with
  | present => by_cases hu : e.u = [] <;> simp [Meets, runValidator, failureKey, hu]
  | isTrue =>
    simp only [Meets, ← truthy_iff, runValidator, failureKey]
    cases truthy e.value <;> simp
  | isFalse =>
    simp only [Meets, ← truthy_iff, runValidator, failureKey]
    cases truthy e.value <;> simp
  | valueIn options =>
    simp only [Meets, runValidator, failureKey]
    rw [← List.any_eq_true]
    cases options.any (pyEq e.value) <;> simp
  | converted => cases hv : e.value <;> simp [Meets, runValidator, failureKey, hv, isNone]
  | shorterThan n =>
    simp only [Meets, runValidator, failureKey]
    constructor <;> intro hh
    · rw [if_neg (by omega)]
    · rw [if_pos (by omega)]
  | longerThan n =>
    simp only [Meets, runValidator, failureKey]
    constructor <;> intro hh
    · rw [if_neg (by omega)]
    · rw [if_pos (by omega)]
  | lengthBetween a b =>
    simp only [Meets, runValidator, failureKey]
    constructor <;> intro hh
    · rw [if_neg (by omega)]
    · rw [if_pos (by omega)]
  | valueLessThan b =>
    simp only [runValidator, (comparisons h).1]
    exact failUnless_bool _ _ _ decide_eq_true_iff
  | valueAtMost b =>
    simp only [runValidator, (comparisons h).2.1]
    exact failUnless_bool _ _ _ decide_eq_true_iff
  | valueGreaterThan b =>
    simp only [runValidator, (comparisons h).2.2.1]
    exact failUnless_bool _ _ _ decide_eq_true_iff
  | valueAtLeast b =>
    simp only [runValidator, (comparisons h).2.2.2]
    exact failUnless_bool _ _ _ decide_eq_true_iff
  | valueBetween lo hi inclusive =>
    obtain ⟨h1, h2⟩ := h
    cases inclusive
    · simp only [runValidator, (comparisons h1).1, (comparisons h2).1, andThen_decide, Bool.false_eq_true, if_false]
      exact failUnless_bool _ _ _ decide_eq_true_iff
    · simp only [runValidator, (comparisons h1).2.1, (comparisons h2).2.1, andThen_decide, if_true]
      exact failUnless_bool _ _ _ decide_eq_true_iff
  | hasAtLeast n =>
    obtain ⟨hn, l, hs, xs, hv, hl⟩ := h
    simp only [Meets, Holds, runValidator, failureKey, hs, hv, isNone, pyLen]
    constructor
    · rintro ⟨l', ⟨_, ys, hy, rfl⟩, hle⟩
      cases hy
      split
      · simp at *
      · split
        · rfl
        · rw [if_neg (by simp), if_neg (by omega)]
    · intro hnot
      have : (l : Int) < n := by
        apply Int.lt_of_not_ge
        intro hge
        exact hnot ⟨l, ⟨trivial, xs, rfl, hl⟩, hge⟩
      rw [if_neg (by simp), if_neg (by omega), if_neg (by simp)]
      simp only [hl]
      rw [if_pos this]
  | hasAtMost n =>
    obtain ⟨hn, l, hs, xs, hv, hl⟩ := h
    simp only [Meets, Holds, runValidator, failureKey, hs, hv, truthy, pyLen]
    constructor
    · rintro ⟨l', ⟨_, ys, hy, rfl⟩, hle⟩
      cases hy
      rw [if_neg (by simp)]
      split
      · rfl
      · rw [if_neg (by omega)]
    · intro hnot
      have : n < (l : Int) := by
        apply Int.lt_of_not_ge
        intro hge
        exact hnot ⟨l, ⟨trivial, xs, rfl, hl⟩, hge⟩
      rw [if_neg (by simp), if_neg (by cases xs with | nil => simp at hl; omega | cons => simp)]
      simp only [hl]
      rw [if_pos (by omega)]
  | hasBetween a b =>
    obtain ⟨l, hs, xs, hv, hl⟩ := h
    simp only [Meets, Holds, runValidator, failureKey, hs, hv, isNone, pyLen]
    constructor
    · rintro ⟨l', ⟨_, ys, hy, rfl⟩, hle⟩
      cases hy
      simp [hle]
    · intro hnot
      have : ¬ (a ≤ (l : Int) ∧ (l : Int) ≤ b) := by
        intro hge
        exact hnot ⟨l, ⟨trivial, xs, rfl, hl⟩, hge⟩
      simp only [hl]
      simp only [Bool.not_true, Bool.false_eq_true, if_false, this]
      split <;> rfl

/-- C40. What `validate` then does: nothing and True, or False with at most one message more (exactly one unless it is there already, or
the message is empty). -/
theorem C40_result (n : Noter) (errors : List PStr) (e : Checked) (c : Check) (h : Applies e c) :
    (Meets e c → runCheck n errors (runValidator e c) = (errors, .ok true)) ∧
    (¬ Meets e c → runCheck n errors (runValidator e c) = noteMessage n.env errors .none (n.attr (failureKey c).toList)) := by
  constructor <;> intro hm
  · rw [(C40_exact e c h).1 hm]; rfl
  · rw [(C40_exact e c h).2 hm]; rfl

/-- C40. A failure adds exactly the message text, once. -/
theorem C40_one_error (n : Noter) (errors : List PStr) (e : Checked) (c : Check) (h : Applies e c) (hm : ¬ Meets e c) (m : MsgAttr) (text : PStr)
    (ha : n.attr (failureKey c).toList = .ok m) (ht : ¬ Silent m) (hx : expandMessage n.env m = .ok text) :
    runCheck n errors (runValidator e c) = (if text ∈ errors then errors else errors ++ [text], .ok false) := by
  rw [(C40_result n errors e c h).2 hm, ha]
  simp [noteMessage, show MsgAttr.none.truth = false from rfl, (msg_says m).2 ht, hx]

/-- C40. Values that cannot be ordered against the bound (None above all) raise TypeError. -/
theorem C40_incomparable (e : Checked) (b : PyVal) (h : ¬ Comparable e.value b) :
    runValidator e (.valueLessThan b) = .error .type ∧ runValidator e (.valueAtMost b) = .error .type ∧
    runValidator e (.valueGreaterThan b) = .error .type ∧ runValidator e (.valueAtLeast b) = .error .type := by
  simp [runValidator, pyLt, pyLe, pyGt, pyGe, incomparable h, Except.map, failUnless]

omit [Runtime] in
/-- C40. None cannot be ordered against anything, nor a text against a number. -/
theorem C40_none_incomparable (b : PyVal) (s : PStr) (i : Int) : ¬ Comparable .none b ∧ ¬ Comparable (.str s) (.int i) := by
  constructor
  · rintro (h | h | h) <;> cases h <;> simp_all [number?]
  · rintro (h | h | h) <;> cases h <;> simp_all [number?]

/-- C40. The counting validators insist on a sequence. -/
theorem C40_not_a_sequence (e : Checked) (h : e.isSequence = false) (a b : Int) :
    runValidator e (.hasAtLeast a) = .error .assertion ∧ runValidator e (.hasAtMost a) = .error .assertion ∧ runValidator e (.hasBetween a b) = .error .assertion := by
  simp [runValidator, h]

omit [Runtime] in
/-- C40. HasBetween cannot be made with bounds that make no sense. -/
theorem C40_has_between_bounds (a b : Int) :
    (hasBetweenNew a b = .ok (.hasBetween a b) ↔ 0 ≤ a ∧ a ≤ b) ∧ (hasBetweenNew a b = .error .type ↔ ¬ (0 ≤ a ∧ a ≤ b)) := by
  unfold hasBetweenNew
  split
  · simp; omega
  · simp; omega

omit [Runtime] in
/-- C40. The ordering is a strict total order on comparable values: exactly one of smaller, same, greater. -/
theorem C40_trichotomy (a b : PyVal) (h : Comparable a b) :
    (Less a b ∧ ¬ Same a b ∧ ¬ Less b a) ∨ (Same a b ∧ ¬ Less a b ∧ ¬ Less b a) ∨ (Less b a ∧ ¬ Less a b ∧ ¬ Same a b) := by
  unfold Comparable at h
  rcases order_cases a b with ⟨hp, h1, h2, h3⟩ | ⟨hp, h1, h2, h3⟩ | ⟨hp, h1, h2, h3⟩ | ⟨hp, h1, h2, h3⟩
  · exact .inl ⟨h1, h2, h3⟩
  · exact .inr (.inl ⟨h1, h2, h3⟩)
  · exact .inr (.inr ⟨h1, h2, h3⟩)
  · simp [h1, h2, h3] at h

/-! ### C41 -/

section
variable {I : Type} [DecidableEq I]

omit [Runtime] in
theorem dupLoop_eq (op : I → I → Bool) (el : I) (pre post : List I) (hel : el ∉ pre) (idx : Nat) (valid : Bool) :
    dupLoop (fun a b => .ok (op a b)) el idx valid (pre ++ el :: post) = .ok (valid && !pre.any (op el), idx + pre.length + 1) := by
  induction pre generalizing idx valid with
  | nil => simp [dupLoop]
  | cons p pre ih =>
    have hne : p ≠ el := fun hh => hel (by simp [hh])
    have hel' : el ∉ pre := fun hh => hel (by simp [hh])
    simp only [List.cons_append, dupLoop, hne, if_false]
    cases valid with
    | true =>
      simp only [if_true, ih hel', List.any_cons, List.length_cons]
      cases op el p <;> simp <;> omega
    | false =>
      simp only [Bool.false_eq_true, if_false, ih hel', List.length_cons]
      simp; omega

omit [Runtime] in
/-- C41. The member at position k (counted from 0) of a container gets an error exactly if it equals an earlier one, and the position
reported is k + 1. -/
theorem C41_member (op : I → I → Bool) (children : List I) (hn : children.Nodup) (k : Nat) (hk : k < children.length) :
    notDuplicated (fun a b => .ok (op a b)) children[k] (some children) =
      .ok (if ∃ j, ∃ _ : j < k, op children[k] (children[j]'(by omega)) = true then some (k + 1) else .none) := by
  have hsplit : children = children.take k ++ children[k] :: children.drop (k + 1) := by simp
  have hnot : children[k] ∉ children.take k := by
    intro hm
    obtain ⟨j, hj, he⟩ := List.getElem_of_mem hm
    simp only [List.length_take] at hj
    simp only [List.getElem_take] at he
    have := (List.getElem_inj hn).mp he
    omega
  have := dupLoop_eq op children[k] (children.take k) (children.drop (k + 1)) hnot 0 true
  rw [← hsplit] at this
  simp only [notDuplicated, this, Bool.true_and, List.length_take]
  have hmin : min k children.length = k := by omega
  rw [hmin]
  by_cases hex : ∃ j, ∃ _ : j < k, op children[k] (children[j]'(by omega)) = true
  · have : (children.take k).any (op children[k]) = true := by
      obtain ⟨j, hj, ho⟩ := hex
      rw [List.any_eq_true]
      refine ⟨children[j], ?_, ho⟩
      rw [List.mem_take_iff_getElem]
      exact ⟨j, by omega, rfl⟩
    simp only [this, hex, if_true]
    simp
  · have : (children.take k).any (op children[k]) = false := by
      rw [← Bool.not_eq_true, List.any_eq_true]
      rintro ⟨x, hx, ho⟩
      obtain ⟨j, hj, rfl⟩ := List.mem_take_iff_getElem.mp hx
      exact hex ⟨j, by omega, ho⟩
    simp only [this, hex, if_false]
    simp

omit [Runtime] in
/-- C41. So all members pass exactly if no two of them are equal. -/
theorem C41_all (op : I → I → Bool) (children : List I) (hn : children.Nodup) :
    (∀ c ∈ children, notDuplicated (fun a b => .ok (op a b)) c (some children) = .ok .none) ↔
      ∀ j k (hk : k < children.length) (_ : j < k), op children[k] (children[j]'(by omega)) = false := by
  constructor
  · intro h j k hk hj
    have := h children[k] (List.getElem_mem hk)
    rw [C41_member op children hn k hk] at this
    split at this
    · simp at this
    · rename_i hno
      cases ho : op children[k] (children[j]'(by omega)) with
      | false => rfl
      | true => exact absurd ⟨j, hj, ho⟩ hno
  · intro h c hc
    obtain ⟨k, hk, rfl⟩ := List.getElem_of_mem hc
    rw [C41_member op children hn k hk, if_neg]
    rintro ⟨j, hj, ho⟩
    rw [h j k hk hj] at ho
    simp at ho

omit [Runtime] in
/-- C41. On an element without a parent it raises TypeError. -/
theorem C41_no_parent (op : I → I → Except PyErr Bool) (el : I) : notDuplicated op el .none = .error .type := rfl

omit [Runtime] in
/-- C41. As soon as one duplicate is found the comparator is not asked about later siblings: an exception there goes unnoticed. -/
theorem C41_stops_comparing (op : I → I → Except PyErr Bool) (el a : I) (pre post : List I) (hel : el ∉ a :: pre) (hd : op el a = .ok true) :
    notDuplicated op el (some (a :: pre ++ el :: post)) = .ok (some (pre.length + 2)) := by
  have key : ∀ (pre : List I) (idx : Nat), el ∉ pre → dupLoop op el idx false (pre ++ el :: post) = .ok (false, idx + pre.length + 1) := by
    intro pre
    induction pre with
    | nil => intro idx _; simp [dupLoop]
    | cons p pre ih =>
      intro idx hel
      have hne : p ≠ el := fun hh => hel (by simp [hh])
      simp only [List.cons_append, dupLoop, hne, if_false, Bool.false_eq_true]
      rw [ih (idx + 1) fun hh => hel (by simp [hh])]
      simp; omega
  have hne : a ≠ el := fun hh => hel (by simp [hh])
  have := key pre 1 fun hh => hel (by simp [hh])
  simp only [notDuplicated, List.cons_append, dupLoop, hne, if_false, if_true, hd, Bool.not_true, Nat.zero_add, this]
  simp; omega

end

/-! ### C42 -/

section
variable {P E V : Type}

omit [Runtime] in
theorem mapExcept_ok {A B : Type} (f : A → Except PyErr B) (g : A → B) (as : List A) (h : ∀ a ∈ as, f a = .ok (g a)) : mapExcept f as = .ok (as.map g) := by
  induction as with
  | nil => rfl
  | cons a as ih => simp [mapExcept, h a (by simp), ih fun b hb => h b (by simp [hb])]

omit [Runtime] in
theorem allEqual_ok (fn : E → V) (eq : V → V → Bool) (sample : V) (es : List E) :
    allEqual (fun e => .ok (fn e)) eq sample es = .ok (es.all fun e => eq (fn e) sample) := by
  induction es with
  | nil => rfl
  | cons e es ih => cases h : eq (fn e) sample <;> simp [allEqual, h, ih]

omit [Runtime] in
/-- any comparison of the fields that is an equivalence on their values -/
theorem mapEqual_iff (paths : List P) (hne : paths ≠ []) (el : P → E) (find : P → Except PyErr E) (hf : ∀ p ∈ paths, find p = .ok (el p))
    (fn : E → V) (eq : V → V → Bool) (hr : ∀ p ∈ paths, eq (fn (el p)) (fn (el p)) = true)
    (hs : ∀ p ∈ paths, ∀ q ∈ paths, eq (fn (el p)) (fn (el q)) = true → eq (fn (el q)) (fn (el p)) = true)
    (ht : ∀ p ∈ paths, ∀ q ∈ paths, ∀ r ∈ paths, eq (fn (el p)) (fn (el q)) = true → eq (fn (el q)) (fn (el r)) = true → eq (fn (el p)) (fn (el r)) = true) :
    (mapEqual find (fun e => .ok (fn e)) eq paths = .ok .none ↔ ∀ p ∈ paths, ∀ q ∈ paths, eq (fn (el p)) (fn (el q)) = true) ∧
    (mapEqual find (fun e => .ok (fn e)) eq paths = .ok (some "unequal".toList) ↔ ¬ ∀ p ∈ paths, ∀ q ∈ paths, eq (fn (el p)) (fn (el q)) = true) := by
  cases paths with
  | nil => contradiction
  | cons p ps =>
    have hm := mapExcept_ok find el (p :: ps) hf
    simp only [mapEqual, hm, List.map_cons, allEqual_ok, failUnless]
    have key : (List.map el ps).all (fun e => eq (fn e) (fn (el p))) = true ↔ ∀ q ∈ p :: ps, ∀ r ∈ p :: ps, eq (fn (el q)) (fn (el r)) = true := by
      rw [List.all_eq_true]
      constructor
      · intro h
        have h' : ∀ q ∈ p :: ps, eq (fn (el q)) (fn (el p)) = true := by
          intro q hq
          rcases List.mem_cons.mp hq with rfl | hq'
          · exact hr _ (by simp)
          · exact h (el q) (List.mem_map_of_mem hq')
        intro q hq r hr'
        exact ht q hq p (by simp) r hr' (h' q hq) (hs r hr' p (by simp) (h' r hr'))
      · intro h e he
        obtain ⟨q, hq, rfl⟩ := List.mem_map.mp he
        exact h q (by simp [hq]) p (by simp)
    rw [← key]
    cases (List.map el ps).all (fun e => eq (fn e) (fn (el p))) <;> simp

omit [Runtime] in
/-- C42. ValuesEqual accepts exactly if the values of all the fields are pairwise equal, however many there are. -/
theorem C42_values_equal (paths : List P) (hne : paths ≠ []) (el : P → E) (find : P → Except PyErr E) (hf : ∀ p ∈ paths, find p = .ok (el p))
    (value : E → PyVal) (hw : ∀ p ∈ paths, WfVal (value (el p))) :
    (mapEqual find (fun e => .ok (value e)) pyEq paths = .ok .none ↔ ∀ p ∈ paths, ∀ q ∈ paths, pyEq (value (el p)) (value (el q)) = true) ∧
    (mapEqual find (fun e => .ok (value e)) pyEq paths = .ok (some "unequal".toList) ↔ ¬ ∀ p ∈ paths, ∀ q ∈ paths, pyEq (value (el p)) (value (el q)) = true) :=
  mapEqual_iff paths hne el find hf value pyEq (fun p hp => pyEq_refl _ _ (Nat.lt_succ_self _) (hw p hp))
    (fun p hp q hq => pyEq_symm _ _ _ (Nat.lt_succ_self _) (hw p hp) (hw q hq))
    (fun p hp q hq r hr => pyEq_trans _ _ _ _ (Nat.lt_succ_self _) (hw p hp) (hw q hq) (hw r hr))

omit [Runtime] in
/-- C42. UnisEqual accepts exactly if all the fields have the same text. -/
theorem C42_unis_equal (paths : List P) (hne : paths ≠ []) (el : P → E) (find : P → Except PyErr E) (hf : ∀ p ∈ paths, find p = .ok (el p)) (u : E → PStr) :
    (mapEqual find (fun e => .ok (u e)) (· == ·) paths = .ok .none ↔ ∀ p ∈ paths, ∀ q ∈ paths, u (el p) = u (el q)) ∧
    (mapEqual find (fun e => .ok (u e)) (· == ·) paths = .ok (some "unequal".toList) ↔ ¬ ∀ p ∈ paths, ∀ q ∈ paths, u (el p) = u (el q)) := by
  have := mapEqual_iff paths hne el find hf u (· == ·) (by simp) (by simp; grind) (by simp; grind)
  simpa using this

omit [Runtime] in
/-- C42. A path that cannot be resolved raises; nothing is compared. -/
theorem C42_unknown_path (pre post : List P) (p : P) (find : P → Except PyErr E) (el : P → E) (hf : ∀ q ∈ pre, find q = .ok (el q)) (er : PyErr) (hp : find p = .error er)
    (fn : E → Except PyErr V) (eq : V → V → Bool) : mapEqual find fn eq (pre ++ p :: post) = .error er := by
  have : mapExcept find (pre ++ p :: post) = .error er := by
    induction pre with
    | nil => simp [mapExcept, hp]
    | cons a pre ih => simp [mapExcept, hf a (by simp), ih fun q hq => hf q (by simp [hq])]
  simp [mapEqual, this]

omit [Runtime] in
/-- C42. The validator cannot be made with one path, nor with none unless the class has some. -/
theorem C42_paths_needed (given classPaths : List P) :
    mapEqualNew given classPaths = (if given.length > 1 then .ok given else if given = [] ∧ classPaths ≠ [] then .ok classPaths else .error .assertion) := by
  cases given with
  | nil => cases classPaths <;> simp [mapEqualNew]
  | cons p ps => simp [mapEqualNew]

omit [Runtime] in
/-- C42 (what a transform may be). The plain MapEqual, and a subclass whose `transform` is a function written in the class, raises TypeError
on every group of fields that can be found: the function is called with the validator as well as the element. (ValuesEqual and UnisEqual use
`attrgetter`, which is not a function in this sense; a function given to the constructor works, too.) -/
theorem C42_function_on_class (paths : List P) (hne : paths ≠ []) (el : P → E) (find : P → Except PyErr E) (hf : ∀ p ∈ paths, find p = .ok (el p))
    (f : E → Except PyErr V) (eq : V → V → Bool) (label : E → Option PStr) :
    mapEqualFull find (.function true f) eq label paths = .error .type := by
  cases paths with
  | nil => contradiction
  | cons p ps =>
    simp [mapEqualFull, mapEqual, mapExcept_ok find el (p :: ps) hf, TransformAttr.call]

omit [Runtime] in
/-- C42 (the message). If the values differ, the message names all the fields: the labels of all but the last, with commas, and the label
of the last. For this all of them but the last need a label, or else TypeError is raised instead of reporting the failure. -/
theorem C42_message (init : List P) (last : P) (hne : init ≠ []) (el : P → E) (find : P → Except PyErr E)
    (hf : ∀ p ∈ init ++ [last], find p = .ok (el p)) (f : E → V) (eq : V → V → Bool) (label : E → Option PStr)
    (t : TransformAttr E V) (ht : t = .callable (fun e => .ok (f e)) ∨ t = .function false fun e => .ok (f e)) :
    let r := mapEqualFull find t eq label (init ++ [last])
    let accepted := mapEqual find (fun e => .ok (f e)) eq (init ++ [last]) = .ok .none
    (accepted → r = .ok .none) ∧
    (¬ accepted → (∀ p ∈ init, label (el p) ≠ .none) →
      r = .ok (some (pyJoin ", ".toList (init.map fun p => (label (el p)).getD []), label (el last)))) ∧
    (¬ accepted → (∃ p ∈ init, label (el p) = .none) → r = .error .type) := by
  intro r accepted
  have hm := mapExcept_ok find el (init ++ [last]) hf
  have hcall : t.call = fun e => .ok (f e) := by
    rcases ht with rfl | rfl <;> rfl
  have hr : r = mapEqualFull find t eq label (init ++ [last]) := rfl
  unfold mapEqualFull at hr
  rw [hm, hcall] at hr
  simp only at hr
  have htot : accepted ∨ ∃ m, mapEqual find (fun e => .ok (f e)) eq (init ++ [last]) = .ok (some m) := by
    show mapEqual find (fun e => .ok (f e)) eq (init ++ [last]) = .ok .none ∨ _
    cases init with
    | nil => contradiction
    | cons p ps =>
      rw [List.cons_append] at hm ⊢
      simp only [mapEqual, hm, List.map_cons, allEqual_ok, failUnless]
      split <;> simp
  have hlab : equalLabels (((init ++ [last]).map el).map label) =
      if (init.map fun p => label (el p)).contains .none then .error .type
      else .ok (pyJoin ", ".toList (init.map fun p => (label (el p)).getD []), label (el last)) := by
    cases init with
    | nil => contradiction
    | cons p ps =>
      simp only [List.cons_append, List.map_cons, List.map_append, List.map_nil, equalLabels, List.map_map]
      have hd : (label (el p) :: (List.map (label ∘ el) ps ++ [label (el last)])).dropLast = label (el p) :: List.map (label ∘ el) ps := by
        rw [← List.cons_append, List.dropLast_concat]
      rw [hd, List.getLast_cons (by simp), List.getLast_concat]
      simp [Function.comp_def]
  refine ⟨fun h => ?_, fun h hl => ?_, fun h hl => ?_⟩
  · rw [hr, h]
  · rcases htot with h' | ⟨m, h'⟩
    · exact absurd h' h
    · rw [hr, h', hlab, if_neg]
      simp only [List.contains_iff_mem, List.mem_map]
      rintro ⟨p, hp, he⟩
      exact hl p hp he
  · rcases htot with h' | ⟨m, h'⟩
    · exact absurd h' h
    · rw [hr, h', hlab, if_pos]
      simp only [List.contains_iff_mem, List.mem_map]
      exact hl

end

/-! ### C43 -/

/-- C43. IsEmail accepts an address exactly if it is `local@domain` with a single `@`, a local part that is not blank and (if a pattern is given)
matches it, and a domain whose IDNA form is a domain name, of two labels at least if `non_local`. (The IDNA form has no newline.) -/
theorem C43_accepts (idna : PStr → Option PStr) (localOk : PStr → Bool) (nonLocal : Bool) (addr : PStr) (hnl : ∀ d a, idna d = some a → '\n' ∉ a) :
    isEmail idna localOk nonLocal addr = .none ↔
      ∃ localPart domain ascii, addr = localPart ++ '@' :: domain ∧ '@' ∉ localPart ∧ '@' ∉ domain ∧ (∃ c ∈ localPart, space c = false) ∧
        localOk localPart = true ∧ idna domain = some ascii ∧ DomainName (if nonLocal then 2 else 1) ascii := by
  have hsplit : ∀ l d : PStr, '@' ∉ l → (l ++ '@' :: d).takeWhile (· != '@') = l ∧ ((l ++ '@' :: d).dropWhile (· != '@')).drop 1 = d := by
    intro l d hl
    induction l with
    | nil => simp
    | cons c l ih =>
      have : c ≠ '@' := fun hh => hl (by simp [hh])
      have := ih fun hh => hl (by simp [hh])
      simp_all
  have hcount : ∀ s : PStr, s.count '@' = 1 → ∃ l d, s = l ++ '@' :: d ∧ '@' ∉ l ∧ '@' ∉ d := by
    intro s
    induction s with
    | nil => simp
    | cons c s ih =>
      intro h
      by_cases hc : c = '@'
      · subst hc
        simp only [List.count_cons_self, Nat.add_eq_right] at h
        exact ⟨[], s, rfl, by simp, List.count_eq_zero.mp h⟩
      · rw [List.count_cons_of_ne (by simpa using hc)] at h
        obtain ⟨l, d, rfl, h1, h2⟩ := ih h
        exact ⟨c :: l, d, rfl, by simp [h1, Ne.symm hc], h2⟩
  have hdom : ∀ a, '\n' ∉ a → ((¬ a.length > 253 ∧ domainScan false a = true ∧ ¬ ((pySplit ['.'] a).length = 1 ∧ nonLocal = true) ∧
      (pySplit ['.'] a).all (fun l => decide (l.length < 64)) = true) ↔ DomainName (if nonLocal then 2 else 1) a) := by
    intro a ha
    rw [domainScan_iff a false ha]
    constructor
    · rintro ⟨h1, ⟨first, rest, rfl, hf, hc, hr⟩, h3, h4⟩
      have hlab : ∀ l ∈ first :: rest, l ≠ [] ∧ ∀ c ∈ l, domainChar c = true := by
        intro l hl
        rcases List.mem_cons.mp hl with rfl | hl
        · exact ⟨hf rfl, hc⟩
        · exact hr l hl
      have hdots : ∀ l ∈ first :: rest, '.' ∉ l := fun l hl hd => by
        have := (hlab l hl).2 _ hd
        rw [domainChar_dot] at this
        simp at this
      rw [pySplit_pyJoin '.' [] _ (by simp) hdots] at h3 h4
      refine ⟨first :: rest, rfl, ?_, by simp, ?_, by omega⟩
      · cases nonLocal with
        | false => simp
        | true => simp at h3 ⊢; cases rest <;> simp at h3 ⊢
      · intro l hl
        obtain ⟨h5, h6⟩ := hlab l hl
        refine ⟨?_, ?_, fun c hc' => (domainChar_iff c).mp (h6 c hc')⟩
        · cases l with
          | nil => contradiction
          | cons => simp
        · have := List.all_eq_true.mp h4 l hl
          simp at this
          omega
    · rintro ⟨labels, rfl, h1, h2, h3, h4⟩
      cases labels with
      | nil => simp at h2
      | cons first rest =>
        have hlab : ∀ l ∈ first :: rest, l ≠ [] ∧ ∀ c ∈ l, domainChar c = true := by
          intro l hl
          obtain ⟨h5, h6, h7⟩ := h3 l hl
          exact ⟨by intro hh; simp [hh] at h5, fun c hc => (domainChar_iff c).mpr (h7 c hc)⟩
        have hdots : ∀ l ∈ first :: rest, '.' ∉ l := fun l hl hd => by
          have := (hlab l hl).2 _ hd
          rw [domainChar_dot] at this
          simp at this
        refine ⟨by omega, ⟨first, rest, rfl, fun _ => (hlab _ (by simp)).1, (hlab _ (by simp)).2, fun l hl => hlab l (by simp [hl])⟩, ?_, ?_⟩
        · rw [pySplit_pyJoin '.' [] _ (by simp) hdots]
          rintro ⟨h5, rfl⟩
          rw [h5] at h1
          simp at h1
        · rw [pySplit_pyJoin '.' [] _ (by simp) hdots, List.all_eq_true]
          intro l hl
          have := (h3 l hl).2.1
          simp
          omega
  constructor
  · intro h
    unfold isEmail at h
    split at h
    · simp at h
    · rename_i hc
      simp only [ne_eq, Decidable.not_not] at hc
      obtain ⟨l, d, rfl, h1, h2⟩ := hcount addr hc
      simp only [(hsplit l d h1).1, (hsplit l d h1).2] at h
      split at h
      · simp at h
      · rename_i hb
        split at h
        · simp at h
        · rename_i hl
          split at h
          · simp at h
          · rename_i a ha
            refine ⟨l, d, a, rfl, h1, h2, ?_, by simpa using hl, ha, ?_⟩
            · have hb' : ¬ l.all space = true := fun hh => hb (.inr hh)
              rw [List.all_eq_true] at hb'
              simp only [Classical.not_forall, Bool.not_eq_true] at hb'
              obtain ⟨c, hc, hs⟩ := hb'
              exact ⟨c, hc, hs⟩
            · rw [← hdom a (hnl d a ha)]
              split at h
              · simp at h
              · split at h
                · simp at h
                · split at h
                  · simp at h
                  · split at h
                    · simp at h
                    · rename_i g1 g2 g3 g4
                      exact ⟨g1, by simpa using g2, g3, by simpa using g4⟩
  · rintro ⟨l, d, a, rfl, h1, h2, ⟨c, hc, hs⟩, hl, ha, hd⟩
    obtain ⟨g1, g2, g3, g4⟩ := (hdom a (hnl d a ha)).mpr hd
    have hcnt : (l ++ '@' :: d).count '@' = 1 := by
      rw [List.count_append, List.count_cons_self, List.count_eq_zero.mpr h1, List.count_eq_zero.mpr h2]
    have hblank : ¬ (l = [] ∨ l.all space = true) := by
      rintro (rfl | hh)
      · simp at hc
      · rw [List.all_eq_true] at hh
        rw [hh c hc] at hs
        simp at hs
    unfold isEmail
    simp only [hcnt, ne_eq, not_true, if_false, (hsplit l d h1).1, (hsplit l d h1).2, hblank, hl, Bool.not_true, Bool.false_eq_true, ha, g1, g2, g3, g4]

/-- C43. Everything else gets the one message. -/
theorem C43_rejects (idna : PStr → Option PStr) (localOk : PStr → Bool) (nonLocal : Bool) (addr : PStr) :
    isEmail idna localOk nonLocal addr = .none ∨ isEmail idna localOk nonLocal addr = some "invalid".toList := by
  unfold isEmail
  repeat' (first | (split; exact .inr rfl) | split | exact .inl rfl | exact .inr rfl)
  simp only
  repeat' (first | (split; exact .inr rfl) | split | exact .inl rfl | exact .inr rfl)

/-! ### C44 -/

omit [Runtime] in
/-- C44. URLValidator accepts exactly the texts that parse to a URL with a scheme, an allowed one, whose parts other than the allowed ones are
blank. -/
theorem C44_url_accepts (schemes : Schemes) (allowed : List PStr) (parsed : Option (Except PyErr (PStr → PStr))) :
    urlValidator schemes allowed parsed = .none ↔
      ∃ url, parsed = some (.ok url) ∧ url "scheme".toList ≠ [] ∧ (∀ names, schemes = .only names → url "scheme".toList ∈ names) ∧
        ∀ part ∈ ["scheme", "netloc", "path", "params", "query", "fragment"].map String.toList, part ∉ allowed → url part = [] := by
  cases parsed with
  | none => simp [urlValidator]
  | some r => cases r with
    | error er => simp [urlValidator]
    | ok url =>
      have hparts : (urlParts.any (fun part => !allowed.contains part && url part != [])) = false ↔ ∀ part ∈ urlParts, part ∉ allowed → url part = [] := by
        rw [List.any_eq_false]
        simp
      have hb : schemes.blocks (url "scheme".toList) = false ↔ ∀ names, schemes = .only names → url "scheme".toList ∈ names := by
        cases schemes <;> simp [Schemes.blocks]
      simp only [Option.some.injEq, Except.ok.injEq, exists_eq_left']
      rw [show (["scheme", "netloc", "path", "params", "query", "fragment"].map String.toList) = urlParts from rfl, ← hparts, ← hb]
      simp only [urlValidator]
      generalize url "scheme".toList = scheme
      generalize "blocked_scheme".toList = m1
      generalize "blocked_part".toList = m2
      generalize (urlParts.any fun part => !allowed.contains part && url part != []) = x
      generalize schemes.blocks scheme = y
      by_cases hs : scheme = [] <;> cases x <;> cases y <;> simp [hs]

omit [Runtime] in
/-- C44. The message otherwise. -/
theorem C44_url_messages (schemes : Schemes) (allowed : List PStr) (parsed : Option (Except PyErr (PStr → PStr))) :
    (urlValidator schemes allowed parsed = some "bad_format".toList ↔ ¬ ∃ url, parsed = some (.ok url)) ∧
    (urlValidator schemes allowed parsed = some "blocked_scheme".toList ↔
      ∃ url, parsed = some (.ok url) ∧ (url "scheme".toList = [] ∨ ∃ names, schemes = .only names ∧ url "scheme".toList ∉ names)) := by
  have d1 : "bad_format".toList ≠ "blocked_scheme".toList := by decide
  have d2 : "bad_format".toList ≠ "blocked_part".toList := by decide
  have d3 : "blocked_scheme".toList ≠ "blocked_part".toList := by decide
  have hb : ∀ scheme, schemes.blocks scheme = true ↔ ∃ names, schemes = .only names ∧ scheme ∉ names := by
    intro scheme
    cases schemes <;> simp [Schemes.blocks]
  cases parsed with
  | none => simp [urlValidator]
  | some r => cases r with
    | error er => simp [urlValidator]
    | ok url =>
      simp only [urlValidator, Option.some.injEq, Except.ok.injEq, exists_eq_left', ← hb, exists_eq', not_true, iff_false]
      revert d1 d2 d3
      generalize url "scheme".toList = scheme
      generalize "bad_format".toList = m0
      generalize "blocked_scheme".toList = m1
      generalize "blocked_part".toList = m2
      generalize (urlParts.any fun part => !allowed.contains part && url part != []) = x
      generalize schemes.blocks scheme = y
      intro d1 d2 d3
      by_cases hs : scheme = [] <;> cases x <;> cases y <;> simp [hs, d1.symm, d2.symm, d3.symm]

omit [Runtime] in
theorem partMissing_iff (required : Option PartRule) (v : Option PStr) : partMissing required v = false ↔ RequiredOk required v := by
  cases required with
  | none => simp [partMissing, RequiredOk]
  | some r => cases r with
    | always => cases v <;> simp [partMissing, RequiredOk]
    | values vs => cases vs <;> simp [partMissing, RequiredOk]; grind

omit [Runtime] in
theorem partPresent_iff (forbidden : Option PartRule) (v : Option PStr) : partPresent forbidden v = false ↔ ForbiddenOk forbidden v := by
  cases forbidden with
  | none => simp [partPresent, ForbiddenOk]
  | some r => cases r with
    | always => cases v <;> simp [partPresent, ForbiddenOk, partTruth]
    | values vs => cases vs <;> simp [partPresent, ForbiddenOk]

omit [Runtime] in
theorem httpPart_ok (required forbidden : Option PartRule) (v : Option PStr) (hr : RequiredOk required v) (hf : ForbiddenOk forbidden v) :
    httpPart required forbidden (.ok v) = .ok .none := by
  simp only [httpPart, (partMissing_iff _ _).mpr hr, (partPresent_iff _ _).mpr hf, Bool.false_eq_true, if_false]

omit [Runtime] in
theorem httpPart_required (required forbidden : Option PartRule) (v : Option PStr) (hr : ¬ RequiredOk required v) :
    httpPart required forbidden (.ok v) = .ok (some "required_part".toList) := by
  rw [← partMissing_iff, Bool.not_eq_false] at hr
  simp only [httpPart, hr, if_true]

omit [Runtime] in
theorem httpPart_forbidden (required forbidden : Option PartRule) (v : Option PStr) (hr : RequiredOk required v) (hf : ¬ ForbiddenOk forbidden v) :
    httpPart required forbidden (.ok v) = .ok (some "forbidden_part".toList) := by
  rw [← partPresent_iff, Bool.not_eq_false] at hf
  simp only [httpPart, (partMissing_iff _ _).mpr hr, hf, if_true, Bool.false_eq_true, if_false]

omit [Runtime] in
theorem httpLoop_append (required forbidden : PStr → Option PartRule) (get : PStr → Except PyErr (Option PStr)) (pre post : List PStr)
    (h : ∀ part ∈ pre, ∃ v, get part = .ok v ∧ RequiredOk (required part) v ∧ ForbiddenOk (forbidden part) v) :
    httpLoop required forbidden get (pre ++ post) = httpLoop required forbidden get post := by
  induction pre with
  | nil => rfl
  | cons p pre ih =>
    obtain ⟨v, h1, h2, h3⟩ := h p (by simp)
    rw [List.cons_append, httpLoop, h1, httpPart_ok _ _ _ h2 h3]
    exact ih fun q hq => h q (by simp [hq])

omit [Runtime] in
/-- C44. HTTPURLValidator accepts None, and a URL exactly if each of its parts meets the rules for required and forbidden parts. -/
theorem C44_http_accepts (parts : List PStr) (required forbidden : PStr → Option PartRule) (get : PStr → Except PyErr (Option PStr)) :
    httpURLValidator parts required forbidden .none = .ok .none ∧
    (httpURLValidator parts required forbidden (some (.ok get)) = .ok .none ↔
      ∀ part ∈ parts, ∃ v, get part = .ok v ∧ RequiredOk (required part) v ∧ ForbiddenOk (forbidden part) v) := by
  refine ⟨rfl, ?_⟩
  simp only [httpURLValidator]
  constructor
  · intro h
    induction parts with
    | nil => simp
    | cons p parts ih =>
      rw [httpLoop] at h
      have hp : ∃ v, get p = .ok v ∧ RequiredOk (required p) v ∧ ForbiddenOk (forbidden p) v := by
        cases hg : get p with
        | error er => rw [hg] at h; cases er <;> simp [httpPart] at h
        | ok v =>
          refine ⟨v, rfl, ?_⟩
          rw [hg] at h
          by_cases h1 : RequiredOk (required p) v
          · by_cases h2 : ForbiddenOk (forbidden p) v
            · exact ⟨h1, h2⟩
            · rw [httpPart_forbidden _ _ _ h1 h2] at h; simp at h
          · rw [httpPart_required _ _ _ h1] at h; simp at h
      obtain ⟨v, h1, h2, h3⟩ := hp
      rw [h1, httpPart_ok _ _ _ h2 h3] at h
      intro q hq
      rcases List.mem_cons.mp hq with rfl | hq
      · exact ⟨v, h1, h2, h3⟩
      · exact ih h q hq
  · intro h
    have := httpLoop_append required forbidden get parts [] h
    simpa [httpLoop] using this

omit [Runtime] in
/-- C44. The first part that does not meet the rules decides on the message. -/
theorem C44_http_messages (required forbidden : PStr → Option PartRule) (get : PStr → Except PyErr (Option PStr)) (pre post : List PStr) (part : PStr)
    (h : ∀ p ∈ pre, ∃ v, get p = .ok v ∧ RequiredOk (required p) v ∧ ForbiddenOk (forbidden p) v) :
    (get part = .error .value → httpURLValidator (pre ++ part :: post) required forbidden (some (.ok get)) = .ok (some "bad_format".toList)) ∧
    (∀ v, get part = .ok v → ¬ RequiredOk (required part) v →
      httpURLValidator (pre ++ part :: post) required forbidden (some (.ok get)) = .ok (some "required_part".toList)) ∧
    (∀ v, get part = .ok v → RequiredOk (required part) v → ¬ ForbiddenOk (forbidden part) v →
      httpURLValidator (pre ++ part :: post) required forbidden (some (.ok get)) = .ok (some "forbidden_part".toList)) := by
  simp only [httpURLValidator, httpLoop_append required forbidden get pre _ h]
  refine ⟨fun hg => ?_, fun v hg h1 => ?_, fun v hg h1 h2 => ?_⟩
  · simp [httpLoop, hg, httpPart]
  · simp only [httpLoop, hg, httpPart_required _ _ _ h1]
  · simp only [httpLoop, hg, httpPart_forbidden _ _ _ h1 h2]

omit [Runtime] in
/-- Where the documentation of C44 fails: by default any scheme is accepted (the rule is kept under 'schema', not 'scheme'), as long as there is
a host, and neither user name nor password. -/
theorem C44_default_any_scheme (get : PStr → Except PyErr (Option PStr)) (value : PStr → Option PStr) (hg : ∀ p, get p = .ok (value p))
    (hh : value "hostname".toList ≠ .none) (hu : value "username".toList = .none) (hp : value "password".toList = .none) :
    httpURLValidator httpParts defaultRequired' defaultForbidden (some (.ok get)) = .ok .none := by
  rw [(C44_http_accepts httpParts _ _ get).2]
  intro part hpart
  refine ⟨value part, hg part, ?_, ?_⟩
  · unfold defaultRequired'
    have hne : part ≠ "schema".toList := by
      rintro rfl
      revert hpart
      decide
    rw [if_neg hne]
    split
    · rename_i he; subst he; exact hh
    · trivial
  · unfold defaultForbidden
    split
    · rename_i he
      rcases he with rfl | rfl
      · exact .inl hu
      · exact .inl hp
    · trivial

omit [Runtime] in
/-- Where the documentation of C44 fails: a required part that is blank passes (only None counts as missing). -/
theorem C44_required_blank (part : PStr) (forbidden : Option PartRule) (h : ForbiddenOk forbidden (some [])) :
    httpURLValidator [part] (fun _ => some .always) (fun _ => forbidden) (some (.ok fun _ => .ok (some []))) = .ok .none := by
  rw [(C44_http_accepts _ _ _ _).2]
  intro p _
  exact ⟨some [], rfl, by simp [RequiredOk], h⟩

omit [Runtime] in
/-- C44. URLCanonicalizer blanks exactly the parts to be discarded; parts that are None stay None, all others stay as they were. -/
theorem C44_discard (discard : List PStr) (hd : ∀ p ∈ discard, p ∈ urlParts) (url : List (Option PStr)) (hl : url.length = 6) :
    ∃ url', discardLoop discard url = .ok url' ∧ url'.length = 6 ∧
      ∀ i (h : i < 6) (h1 : i < url.length) (h2 : i < url'.length), url'[i] = if urlParts[i]'h ∈ discard then url[i].map (fun _ => []) else url[i] := by
  induction discard generalizing url with
  | nil => exact ⟨url, rfl, hl, by simp⟩
  | cons p ps ih =>
    have hp := hd p (by simp)
    have hidx : urlParts.idxOf p < 6 := List.idxOf_lt_length_of_mem hp
    have hget : url[urlParts.idxOf p]? = some (url[urlParts.idxOf p]'(by omega)) := List.getElem?_eq_getElem _
    simp only [discardLoop, hp, if_true, hget]
    obtain ⟨url', h1, h2, h3⟩ := ih (fun q hq => hd q (by simp [hq])) (url.set (urlParts.idxOf p) (match url[urlParts.idxOf p]'(by omega) with
      | some _ => some []
      | .none => .none)) (by simpa using hl)
    refine ⟨url', h1, h2, ?_⟩
    intro i hi hi1 hi2
    have := h3 i hi (by simpa using hi1) hi2
    rw [this, List.getElem_set]
    by_cases he : urlParts.idxOf p = i
    · subst he
      have hpi : urlParts[urlParts.idxOf p]'hi = p := List.getElem_idxOf _
      simp only [hpi, if_true, List.mem_cons, true_or]
      cases url[urlParts.idxOf p] <;> simp
    · have hne : urlParts[i]'hi ≠ p := by
        intro hh
        apply he
        have hnd : urlParts.Nodup := by decide
        have h1 := List.getElem_idxOf (show urlParts.idxOf p < urlParts.length from hidx)
        exact (List.getElem_inj hnd).mp (h1.trans hh.symm)
      simp [he, hne]

omit [Runtime] in
/-- C44. The element then gets the URL put together from these parts as its value, and passes. -/
theorem C44_canonicalize (discard : List PStr) (hd : ∀ p ∈ discard, p ∈ urlParts) (hne : discard ≠ []) (parse : PyVal → Except PyErr (List (Option PStr)))
    (unparse : List (Option PStr) → Except PyErr PyVal) (value v' : PyVal) (url : List (Option PStr)) (hp : parse value = .ok url) (hl : url.length = 6)
    (hu : unparse ((List.range 6).zipWith (fun i part => if (urlParts[i]?).any (discard.contains ·) then part.map (fun _ => []) else part) url) = .ok v') :
    urlCanonicalize discard parse unparse value = .ok (v', .none) := by
  obtain ⟨url', h1, h2, h3⟩ := C44_discard discard hd url hl
  have : url' = (List.range 6).zipWith (fun i part => if (urlParts[i]?).any (discard.contains ·) then part.map (fun _ => []) else part) url := by
    apply List.ext_getElem
    · simp [h2, hl]
    · intro i g1 g2
      have hi : i < 6 := by omega
      rw [h3 i hi (by omega) g1]
      have : urlParts[i]? = some (urlParts[i]'hi) := List.getElem?_eq_getElem _
      simp [this]
  unfold urlCanonicalize
  simp only [hp, h1, this, hu]
  cases discard with
  | nil => contradiction
  | cons => rfl

omit [Runtime] in
/-- C44. Nothing to discard: the value is left alone; a URL that does not parse: left alone with a message; a name that is no part: ValueError. -/
theorem C44_canonicalize_other (parse : PyVal → Except PyErr (List (Option PStr))) (unparse : List (Option PStr) → Except PyErr PyVal) (value : PyVal) :
    urlCanonicalize [] parse unparse value = .ok (value, .none) ∧
    (∀ d ds er, parse value = .error er → urlCanonicalize (d :: ds) parse unparse value = .ok (value, some "bad_format".toList)) ∧
    (∀ d ds url, parse value = .ok url → d ∉ urlParts → urlCanonicalize (d :: ds) parse unparse value = .error .value) := by
  refine ⟨rfl, ?_, ?_⟩
  · intro d ds er h; simp [urlCanonicalize, h]
  · intro d ds url h hd; simp [urlCanonicalize, h, discardLoop, hd]

end

section
attribute [local instance] Runtime.ascii

/-- Where C43 fails: a final newline is accepted (the pattern ends in `$`). -/
theorem C43_newline_accepted : isEmail some (fun _ => true) true ['a', '@', 'b', '.', 'c', '\n'] = .none := by decide

example : isEmail some (fun _ => true) true ['a', '@', 'b', '.', 'c'] = .none := by decide
example : isEmail some (fun _ => true) true ['a', '@', 'b', '.', '.', 'c'] = some "invalid".toList := by decide

/-- the hypothesis of C43_accepts is met by a codec that knows plain ASCII letters only -/
example : ∀ d a : PStr, (if d.all domainChar then some d else .none) = some a → '\n' ∉ a := by
  intro d a h hn
  split at h
  · rename_i hd
    cases h
    have := List.all_eq_true.mp hd _ hn
    rw [domainChar_newline] at this
    simp at this
  · simp at h

-- C40
example : Applies ⟨.int 3, ['3'], false⟩ (.valueBetween (.int 1) (.int 5) true) ∧ Meets ⟨.int 3, ['3'], false⟩ (.valueBetween (.int 1) (.int 5) true) :=
  ⟨⟨.inl (.number rfl rfl (by decide)), .inl (.number rfl rfl (by decide))⟩, ⟨.inl (.number rfl rfl (by decide)), .inl (.number rfl rfl (by decide))⟩⟩
example : Applies ⟨.list [.int 1, .int 2], [], true⟩ (.hasAtMost 1) ∧ ¬ Meets ⟨.list [.int 1, .int 2], [], true⟩ (.hasAtMost 1) := by
  refine ⟨⟨by decide, 2, rfl, _, rfl, rfl⟩, ?_⟩
  rintro ⟨l, ⟨_, xs, hx, rfl⟩, hl⟩
  cases hx
  simp at hl
example : Less (.str ['a', 'b']) (.str ['a', 'c']) := .text (p := ['a']) (by decide)

/-- Where C40 fails: a MultiValue's value is that of its first member, so the counting validators count the characters of that text; here one
member passes for three. With numbers they raise TypeError. -/
theorem C40_multivalue_counts_characters :
    runValidator ⟨.str ['a', 'b', 'c'], ['a', 'b', 'c'], true⟩ (.hasAtLeast 3) = .ok .none ∧
    runValidator ⟨.int 5, ['5'], true⟩ (.hasAtLeast 1) = .error .type := by decide

/-- With a text or a dictionary for a first value they count its characters or its entries; an empty one is no member to HasAtMost either. -/
theorem C40_multivalue_counts {e : Checked} {n : Nat} (hs : e.isSequence = true)
    (hv : (∃ s, e.value = .str s ∧ s.length = n) ∨ ∃ kvs, e.value = .dict kvs ∧ kvs.length = n) (k j : Int) (hk : 0 ≤ k) :
    runValidator e (.hasAtLeast k) = .ok (if k ≤ n then .none else some "failure".toList) ∧
    runValidator e (.hasAtMost k) = .ok (if (n : Int) ≤ k then .none else some "failure".toList) ∧
    runValidator e (.hasBetween k j) = .ok (if k ≤ n ∧ (n : Int) ≤ j then .none else some (if k = j then "exact".toList else "range".toList)) := by
  have hl : pyLen e.value = .ok n := by
    rcases hv with ⟨s, h, rfl⟩ | ⟨s, h, rfl⟩ <;> rw [h] <;> rfl
  have hn : isNone e.value = false := by
    rcases hv with ⟨s, h, rfl⟩ | ⟨s, h, rfl⟩ <;> rw [h] <;> rfl
  have ht : truthy e.value = false → n = 0 := by
    rcases hv with ⟨s, h, rfl⟩ | ⟨s, h, rfl⟩ <;> rw [h] <;> simp [truthy]
  refine ⟨?_, ?_, ?_⟩
  · simp only [runValidator, hs, hn, hl, Bool.not_true, Bool.false_eq_true, if_false]
    by_cases h0 : k = 0
    · rw [if_pos h0, if_pos (by omega)]
    · rw [if_neg h0]
      by_cases h : k ≤ n
      · rw [if_pos h, if_neg (by omega)]
      · rw [if_neg h, if_pos (by omega)]
  · simp only [runValidator, hs, hl, Bool.not_true, Bool.false_eq_true, if_false]
    cases h : truthy e.value with
    | false => rw [ht h]; simp [hk]
    | true =>
      simp only [Bool.not_true, Bool.false_eq_true, if_false]
      by_cases h : (n : Int) ≤ k
      · rw [if_pos h, if_neg (by omega)]
      · rw [if_neg h, if_pos (by omega)]
  · simp only [runValidator, hs, hn, hl, Bool.not_true, Bool.false_eq_true, if_false]

/-- a dictionary of two entries -/
example : runValidator ⟨.dict [(['a'], .int 1), (['b'], .int 2)], [], true⟩ (.hasAtLeast 3) = .ok (some "failure".toList) := by decide

-- C41: members 1, 2, 1, 2, 3, as numbered objects
example : notDuplicated (fun a b => .ok (([1, 2, 1, 2, 3][a]?) == ([1, 2, 1, 2, 3][b]?))) 3 (some [0, 1, 2, 3, 4]) = .ok (some 4) := by decide

-- C44
example : urlValidator (.only [['h']]) ["scheme".toList, "netloc".toList] (some (.ok fun p => if p = "scheme".toList then ['h'] else if p = "path".toList then ['/'] else [])) =
    some "blocked_part".toList := by decide
example : discardLoop ["fragment".toList, "params".toList] [some ['h'], some ['n'], some ['p'], .none, some [], some ['f']] =
    .ok [some ['h'], some ['n'], some ['p'], .none, some [], some []] := by decide

-- C42: three fields, the last one different
example : mapEqual (fun i => .ok i) (fun i => .ok (if i < 2 then ['a'] else ['b'])) (· == ·) [0, 1, 2] = .ok (some "unequal".toList) := by decide
example : mapEqualFull (fun i => .ok i) (.callable fun i => .ok (if i < 2 then ['a'] else ['b'])) (· == ·) (fun i => if i < 2 then some ['l'] else .none)
    [0, 1, 2] = .ok (some ("l, l".toList, .none)) := by decide
example : mapEqualFull (fun i => .ok i) (.callable fun i => .ok (if i < 2 then ['a'] else ['b'])) (· == ·) (fun i => if i < 2 then .none else some ['l'])
    [0, 1, 2] = .error .type := by decide

-- C44: a list with the asterisk is not the wildcard (which is the tuple): it allows the scheme called `*` only
example : urlValidator (.only [['*']]) ["scheme".toList, "netloc".toList] (some (.ok fun p => if p = "scheme".toList then "http".toList else [])) =
    some "blocked_scheme".toList := by decide

end

end Flatland
