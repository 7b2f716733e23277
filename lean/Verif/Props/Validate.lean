import Verif.Proofs.Validate
/-! C34-C39: validation. -/
namespace Flatland
open Flatland.Spec

variable {I D C : Type} [DecidableEq I]

/-! ## C34 -/

/-- C34. `validate()` returns True iff no visited element got a false result on the way down or up. -/
theorem C34_conjunction (env : VEnv I D) (hf : FlagsUntouched env) (fuel : Nat) (root : I) (st : VState I D) (r : VRun I D) (b : Bool)
    (h : validateTree env fuel root st = some r) (hb : r.result = .ok b) :
    b = true ↔ (∀ i d, (i, d) ∈ r.downs → Good d) ∧ ∀ i u, (i, u) ∈ r.ups → Good u := by
  obtain ⟨_, _, _, _, hres⟩ := validateTree_summary hf h hb
  rw [hres]
  simp only [Bool.and_eq_true, List.all_eq_true, Prod.forall, good_iff]

/-- C34. Every visited element is visited once on the way down and once on the way up, in the opposite order. -/
theorem C34_each_once (env : VEnv I D) (hf : FlagsUntouched env) (fuel : Nat) (root : I) (st : VState I D) (r : VRun I D) (b : Bool)
    (h : validateTree env fuel root st = some r) (hb : r.result = .ok b) :
    (r.downs.map Prod.fst).Nodup ∧ r.ups.map Prod.fst = (r.downs.map Prod.fst).reverse := by
  obtain ⟨h1, h2, _⟩ := validateTree_summary hf h hb
  exact ⟨h1, h2⟩

/-- C34. Without SkipAll, exactly the element and everything below it are visited. -/
theorem C34_visits_all (env : VEnv I D) (kids : I → List I) (hk : StaticKids env kids) (fuel : Nat) (root : I)
    (st : VState I D) (r : VRun I D) (b : Bool) (h : validateTree env fuel root st = some r) (hb : r.result = .ok b)
    (hs : ∀ i d, (i, d) ∈ r.downs → ¬ SkipsBelow d) (x : I) : x ∈ r.downs.map Prod.fst ↔ Within kids root x := by
  obtain ⟨st1, downs, valid, h1, h2, h3⟩ := validateTree_ok h hb
  have hinv := descend_inv hk fuel (downInv_start kids root) h1
  rw [h2, List.map_reverse, List.mem_reverse, downInv_open hinv]
  constructor
  · intro ho
    induction ho with
    | root => exact .root
    | child _ _ _ hx ih => exact .child ih hx
  · intro hw
    induction hw with
    | root => exact .root
    | child _ hx ih =>
      have := (downInv_open hinv _).2 ih
      obtain ⟨⟨y, v⟩, hy, rfl⟩ := List.mem_map.1 this
      exact .child ih hy (hs y v (by rw [h2]; simpa using hy)) hx

/-- C34. In a tree, parents come before their children on the way down. -/
theorem C34_parents_first (env : VEnv I D) (kids : I → List I) (hk : StaticKids env kids) (fuel : Nat) (root : I) (ht : IsTree kids root)
    (st : VState I D) (r : VRun I D) (b : Bool) (h : validateTree env fuel root st = some r) (hb : r.result = .ok b)
    (pre post : List (I × Verdict)) (x y : I) (v : Verdict) (hd : r.downs = pre ++ (x, v) :: post) (hx : x ∈ kids y) :
    y ∈ pre.map Prod.fst := by
  obtain ⟨st1, downs, valid, h1, h2, h3⟩ := validateTree_ok h hb
  have hinv := descend_inv hk fuel (downInv_start kids root) h1
  have hdd : downs = post.reverse ++ (x, v) :: pre.reverse := by
    rw [← List.reverse_reverse downs, ← h2, hd]; simp
  rcases hinv.visited _ _ _ _ hdd with rfl | ⟨z, w, hz, _, hxz⟩
  · exact absurd hx (ht.1 y)
  · have := ht.2 y z x hx hxz
    subst this
    exact List.mem_map.2 ⟨_, by simpa using hz, rfl⟩

/-- C34. In a tree, children come before their parents on the way up. -/
theorem C34_children_first (env : VEnv I D) (hf : FlagsUntouched env) (kids : I → List I) (hk : StaticKids env kids) (fuel : Nat) (root : I)
    (ht : IsTree kids root) (st : VState I D) (r : VRun I D) (b : Bool) (h : validateTree env fuel root st = some r) (hb : r.result = .ok b)
    (pre post : List (I × Verdict)) (x y : I) (u : Verdict) (hu : r.ups = pre ++ (y, u) :: post) (hx : x ∈ kids y)
    (hvis : x ∈ r.downs.map Prod.fst) : x ∈ pre.map Prod.fst := by
  obtain ⟨hnd, hrev⟩ := C34_each_once env hf fuel root st r b h hb
  obtain ⟨⟨x', v⟩, hxm, hxe⟩ := List.mem_map.1 hvis
  simp only at hxe
  subst hxe
  obtain ⟨p, q, hpq⟩ := List.append_of_mem hxm
  have hy := C34_parents_first env kids hk fuel root ht st r b h hb p q x' y v hpq hx
  have hids : r.downs.map Prod.fst = post.reverse.map Prod.fst ++ y :: pre.reverse.map Prod.fst := by
    rw [← List.reverse_reverse (r.downs.map Prod.fst), ← hrev, hu]; simp
  have hids2 : r.downs.map Prod.fst = p.map Prod.fst ++ x' :: q.map Prod.fst := by rw [hpq]; simp
  have hmem : x' ∈ post.reverse.map Prod.fst ++ y :: pre.reverse.map Prod.fst := by rw [← hids, hids2]; simp
  rcases List.mem_append.1 hmem with hm | hm
  · -- then x' is before y, although y is before x'
    exfalso
    obtain ⟨s, t, hst⟩ := List.append_of_mem hm
    obtain ⟨s', t', hst'⟩ := List.append_of_mem hy
    rw [hids2, hst'] at hnd
    rw [hids2, hst', hst] at hids
    -- y occurs before x' in the first form and after it in the second
    have e1 : s' ++ y :: (t' ++ x' :: q.map Prod.fst) = s ++ x' :: (t ++ y :: pre.reverse.map Prod.fst) := by
      simpa using hids
    have hn1 : (s' ++ y :: (t' ++ x' :: q.map Prod.fst)).Nodup := by simpa using hnd
    rcases List.append_eq_append_iff.1 e1 with ⟨w, hw1, hw2⟩ | ⟨w, hw1, hw2⟩
    · cases w with
      | nil =>
        simp only [List.nil_append, List.cons.injEq] at hw2
        have hyx := hw2.1
        rw [List.nodup_append] at hn1
        exact (List.nodup_cons.1 hn1.2.1).1 (by rw [hyx]; simp)
      | cons c w =>
        simp only [List.cons_append, List.cons.injEq] at hw2
        rw [List.nodup_append] at hn1
        apply (List.nodup_cons.1 hn1.2.1).1
        rw [hw2.2]; simp
    · cases w with
      | nil =>
        simp only [List.nil_append, List.cons.injEq] at hw2
        have hyx := hw2.1
        rw [List.nodup_append] at hn1
        exact (List.nodup_cons.1 hn1.2.1).1 (by rw [← hyx]; simp)
      | cons c w =>
        simp only [List.cons_append, List.cons.injEq] at hw2
        rw [hw1, List.nodup_append] at hn1
        refine hn1.2.2 x' ?_ x' (by simp) rfl
        rw [hw2.1]; simp
  · rcases List.mem_cons.1 hm with he | hm
    · exfalso
      subst he
      rw [hids2, List.nodup_append] at hnd
      exact hnd.2.2 x' hy x' (by simp) rfl
    · simpa using hm

/-- C34. The flags after a run: `valid` of a visited element is False if its result on the way down was false, else the result on the
way up, else (no validation upwards) True, or Unevaluated if there was no validation at all; other elements' are as before. -/
theorem C34_flags (env : VEnv I D) (hf : FlagsUntouched env) (fuel : Nat) (root : I) (st : VState I D) (r : VRun I D) (b : Bool)
    (h : validateTree env fuel root st = some r) (hb : r.result = .ok b) :
    (∀ i d u, (i, d) ∈ r.downs → (i, u) ∈ r.ups → r.state.flag i = finalFlag d u) ∧
      ∀ i, i ∉ r.downs.map Prod.fst → r.state.flag i = st.flag i := by
  obtain ⟨_, _, h3, h4, _⟩ := validateTree_summary hf h hb
  exact ⟨h4, h3⟩

/-- C34. Without SkipAll, `all_valid` afterwards is what `validate()` returned. -/
theorem C34_all_valid (env : VEnv I D) (hf : FlagsUntouched env) (kids : I → List I) (hk : StaticKids env kids) (fuel fuel' : Nat) (root : I)
    (st : VState I D) (r : VRun I D) (b b' : Bool) (h : validateTree env fuel root st = some r) (hb : r.result = .ok b)
    (hs : ∀ i d, (i, d) ∈ r.downs → ¬ SkipsBelow d) (ha : getAllValid kids fuel' root r.state = some b') : b' = b := by
  obtain ⟨hnd, hrev, _, hfl, hres⟩ := validateTree_summary hf h hb
  have hvis := C34_visits_all env kids hk fuel root st r b h hb hs
  have key : b' = true ↔ ∀ x, Within kids root x → (r.state.flag x).truth = true := by
    unfold getAllValid at ha
    split at ha
    · rename_i hroot
      cases hl : allChildrenIds kids fuel' root with
      | none => rw [hl] at ha; cases ha
      | some l =>
        rw [hl] at ha
        simp only [Option.map_some, Option.some.injEq] at ha
        rw [← ha, List.all_eq_true]
        obtain ⟨_, hspec⟩ := allChildrenIds_spec hl
        constructor
        · intro h' x hx
          by_cases hxr : x = root
          · subst hxr; exact hroot
          · exact h' x ((hspec x).2 ⟨hxr, hx⟩)
        · intro h' x hx; exact h' x ((hspec x).1 hx).2
    · rename_i hroot
      cases ha
      constructor
      · intro h'; cases h'
      · intro h'; exact absurd (h' root .root) hroot
  rw [Bool.eq_iff_iff, key, C34_conjunction env hf fuel root st r b h hb]
  have hboth : ∀ x, x ∈ r.downs.map Prod.fst → ∃ d u, (x, d) ∈ r.downs ∧ (x, u) ∈ r.ups := by
    intro x hx
    have hx2 : x ∈ r.ups.map Prod.fst := by rw [hrev]; simpa using hx
    obtain ⟨⟨x1, d⟩, h1, rfl⟩ := List.mem_map.1 hx
    obtain ⟨⟨x2, u⟩, h2, he⟩ := List.mem_map.1 hx2
    simp only at he
    subst he
    exact ⟨d, u, h1, h2⟩
  have htruth : ∀ d u, (finalFlag d u).truth = true ↔ Good d ∧ Good u := by
    intro d u
    cases d <;> cases u <;> decide
  constructor
  · intro hall
    constructor
    · intro i d hid
      have hi : i ∈ r.downs.map Prod.fst := List.mem_map.2 ⟨_, hid, rfl⟩
      obtain ⟨d', u, _, h2⟩ := hboth i hi
      have := hall i ((hvis i).1 hi)
      rw [hfl i d u hid h2, htruth] at this
      exact this.1
    · intro i u hiu
      have hi : i ∈ r.downs.map Prod.fst := by
        have : i ∈ r.ups.map Prod.fst := List.mem_map.2 ⟨_, hiu, rfl⟩
        rw [hrev] at this; simpa using this
      obtain ⟨d, _, h1, _⟩ := hboth i hi
      have := hall i ((hvis i).1 hi)
      rw [hfl i d u h1 hiu, htruth] at this
      exact this.2
  · rintro ⟨hd, hu⟩ x hx
    obtain ⟨d, u, h1, h2⟩ := hboth x ((hvis x).2 hx)
    rw [hfl x d u h1 h2, htruth]
    exact ⟨hd x d h1, hu x u h2⟩

/-- C34. For finitely many elements whose children validators do not change, `validate()` ends – with one and the same outcome whatever
number of rounds is allowed, if enough. -/
theorem C34_terminates (env : VEnv I D) (kids : I → List I) (hk : StaticKids env kids) (root : I) (hfin : Finite kids root) (st : VState I D) :
    ∃ r n, ∀ m, n ≤ m → validateTree env m root st = some r := by
  obtain ⟨U, hroot, hU⟩ := hfin
  let n := 1 + pendingKids kids U [] + 1
  have hne := descend_terminates hk U hU n st [root] (by intro x hx; simp at hx; subst hx; exact hroot) [] true (by simp [n])
  cases hd : descend env n st [root] [] true with
  | none => exact absurd hd hne
  | some p =>
    obtain ⟨st', downs, res⟩ := p
    cases hres : validateTree env n root st with
    | none => simp only [validateTree, hd] at hres; cases res <;> simp at hres
    | some r =>
      refine ⟨r, n, fun m hm => ?_⟩
      have := descend_mono hm hd
      rw [← hres]
      simp only [validateTree, hd, this]

/-- C34. Without recursion (`recurse=False`) the element's result upwards decides if there is one, else the result downwards. -/
theorem C34_non_recursive (env : VEnv I D) (hf : FlagsUntouched env) (i : I) (st : VState I D) (d u : Verdict) (st1 st2 : VState I D)
    (hd : env.down i st = (st1, .ok d)) (hu : env.up i (st1.setFlag i (resultFlag d)) = (st2, .ok u)) :
    (validateOne env i st).2 = .ok (if u = .unevaluated then resultFlag d else if Good u then .yes else .no) := by
  rw [resultFlag_eq] at hu ⊢
  rw [goodFlag_eq]
  unfold validateOne
  rw [hd]
  simp only [hu]
  have hfl := (hf i (st1.setFlag i d.flag)).2
  rw [hu] at hfl
  simp only at hfl
  by_cases h : u = .unevaluated
  · simp [h, hfl, setFlag_same]
  · simp [h, setFlag_same]

omit [DecidableEq I] in
/-- C34. Elements with any classes and validators meet the hypotheses of these theorems if no validator assigns `valid`. -/
theorem C34_class_validators (children : VState I D → I → List I) (cls : I → VClass I D)
    (h : ∀ i fn, VClass.runs (cls i) fn → ∀ st, (fn st).1.flag = st.flag) : FlagsUntouched (VEnv.ofClasses children cls) :=
  ofClasses_flagsUntouched children cls h

omit [DecidableEq I] in
/-- C34, C36. What it means for a class with validators: a container without descent validators is not validated on the way down,
anything else is by the chain of its validators. -/
theorem C34_container_without_descent_validators (c : VClass I D) (hc : c.container = true) (hd : c.downList = some []) (st : VState I D) :
    runValidate c true st = (st, [], .ok .unevaluated) := by
  simp [runValidate, hd, hc]

/-! ## C35 -/

/-- C35. The elements visited are exactly those that can be reached from the root through elements that did not return SkipAll or
SkipAllFalse. -/
theorem C35_visited (env : VEnv I D) (kids : I → List I) (hk : StaticKids env kids) (fuel : Nat) (root : I)
    (st : VState I D) (r : VRun I D) (b : Bool) (h : validateTree env fuel root st = some r) (hb : r.result = .ok b) (x : I) :
    x ∈ r.downs.map Prod.fst ↔ Open kids r.downs root x := by
  obtain ⟨st1, downs, valid, h1, h2, h3⟩ := validateTree_ok h hb
  have hinv := descend_inv hk fuel (downInv_start kids root) h1
  rw [h2, List.map_reverse, List.mem_reverse, downInv_open hinv]
  constructor <;> intro ho
  · induction ho with
    | root => exact .root
    | child _ hy hv hx ih => exact .child ih (by simpa using hy) hv hx
  · induction ho with
    | root => exact .root
    | child _ hy hv hx ih => exact .child ih (by simpa using hy) hv hx

/-- C35. In a tree, no descendant of an element whose result was SkipAll or SkipAllFalse is validated, down or up, and their flags stay. -/
theorem C35_descendants_skipped (env : VEnv I D) (hf : FlagsUntouched env) (kids : I → List I) (hk : StaticKids env kids) (fuel : Nat) (root : I)
    (ht : IsTree kids root) (st : VState I D) (r : VRun I D) (b : Bool) (h : validateTree env fuel root st = some r) (hb : r.result = .ok b)
    (y : I) (v : Verdict) (hy : (y, v) ∈ r.downs) (hv : SkipsBelow v) (x : I) (hx : Below kids y x) :
    x ∉ r.downs.map Prod.fst ∧ x ∉ r.ups.map Prod.fst ∧ r.state.flag x = st.flag x := by
  obtain ⟨hnd, hrev⟩ := C34_each_once env hf fuel root st r b h hb
  have hno : x ∉ r.downs.map Prod.fst := by
    rw [C35_visited env kids hk fuel root st r b h hb]
    have uniq : ∀ w, (y, w) ∈ r.downs → w = v := by
      intro w hw
      clear hrev h hb
      revert hnd hy hw
      generalize r.downs = l
      induction l with
      | nil => intro h'; cases h'
      | cons p l ih =>
        intro h1 hnd h2
        rw [List.map_cons, List.nodup_cons] at hnd
        rcases List.mem_cons.1 h1 with rfl | h1' <;> rcases List.mem_cons.1 h2 with h2 | h2
        · cases h2; rfl
        · exact absurd (List.mem_map.2 ⟨_, h2, rfl⟩) hnd.1
        · subst h2; exact absurd (List.mem_map.2 ⟨_, h1', rfl⟩) hnd.1
        · exact ih h1' hnd.2 h2
    induction hx with
    | child hx =>
      intro ho
      cases ho with
      | root => exact ht.1 y hx
      | child hz hzm hzs hxz =>
        have := ht.2 _ _ _ hx hxz
        subst this
        rw [uniq _ hzm] at hzs
        exact hzs hv
    | deeper _ hx ih =>
      intro ho
      cases ho with
      | root => exact ht.1 _ hx
      | child hz hzm hzs hxz =>
        have := ht.2 _ _ _ hx hxz
        subst this
        exact ih hz
  refine ⟨hno, ?_, (C34_flags env hf fuel root st r b h hb).2 x hno⟩
  rw [hrev]; simpa using hno

/-- C35. The element that returned SkipAll (SkipAllFalse) itself counts as valid (invalid): the result of `validate()` and its own flag
say so, unless – for SkipAll – it fails on the way up. -/
theorem C35_skipping_element (env : VEnv I D) (hf : FlagsUntouched env) (fuel : Nat) (root : I) (st : VState I D) (r : VRun I D) (b : Bool)
    (h : validateTree env fuel root st = some r) (hb : r.result = .ok b) (y : I) (u : Verdict) (hu : (y, u) ∈ r.ups) :
    ((y, .skipAllFalse) ∈ r.downs → r.state.flag y = .no ∧ b = false) ∧
      ((y, .skipAll) ∈ r.downs → r.state.flag y = if Good u then .yes else .no) := by
  obtain ⟨hfl, _⟩ := C34_flags env hf fuel root st r b h hb
  constructor
  · intro hy
    refine ⟨by rw [hfl y _ u hy hu]; rfl, ?_⟩
    cases hbb : b with
    | false => rfl
    | true =>
      have := ((C34_conjunction env hf fuel root st r b h hb).1 hbb).1 y _ hy
      exact absurd this (by decide)
  · intro hy
    rw [hfl y _ u hy hu]
    cases u <;> rfl

/-! ## C36 -/

omit [DecidableEq I] in
/-- C36. An optional empty element is valid without running any validator or sending any signal. -/
theorem C36_optional_empty (validators : List (Validator I D)) (st : VState I D) :
    validateElement true true validators st = (st, [], .ok .yes) := rfl

omit [DecidableEq I] in
/-- C36. Without validators, an element (unless optional and empty) is valid iff it is not empty; one signal reports it. -/
theorem C36_no_validators (optional isEmpty : Bool) (h : ¬ (isEmpty = true ∧ optional = true)) (st : VState I D) :
    ∃ v, validateElement optional isEmpty [] st = (st, [.notEmpty !isEmpty], .ok v) ∧ (Good v ↔ isEmpty = false) := by
  cases isEmpty <;> cases optional <;> first
    | (exact absurd ⟨rfl, rfl⟩ h)
    | exact ⟨_, rfl, by simp [Good]⟩

omit [DecidableEq I] in
/-- C36. Otherwise the validators run in order: `outs` are the results of those that ran (each reported by one signal), all but the last
are true; if the last is true, too, all have run; the element is valid iff the last result is true, Skip or SkipAll (so None and
any false value make it invalid); the outcome is SkipAll / SkipAllFalse iff the last result is. -/
theorem C36_chain (optional isEmpty : Bool) (h : ¬ (isEmpty = true ∧ optional = true)) (validators : List (Validator I D)) (hv : validators ≠ [])
    (st : VState I D) :
    ∃ outs : List VResult, (validateElement optional isEmpty validators st).2.1 = outs.zipIdx.map (fun p => Signal.validator p.2 p.1) ∧
      outs.length ≤ validators.length ∧ (∀ r ∈ outs.dropLast, continues r) ∧
      ∀ v, (validateElement optional isEmpty validators st).2.2 = .ok v →
        ∃ last, outs.getLast? = some last ∧ (Good v ↔ accepts last) ∧ (v = .skipAll ↔ last = .skipAll) ∧
          (v = .skipAllFalse ↔ last = .skipAllFalse) ∧ (continues last → outs.length = validators.length) := by
  have hrun : validateElement optional isEmpty validators st = validatorLoop st 0 validators := by
    unfold validateElement
    rw [if_neg (by simpa using h)]
    cases validators with
    | nil => exact absurd rfl hv
    | cons _ _ => rfl
  rw [hrun]
  obtain ⟨outs, h1, h2, h3, h4⟩ := validatorLoop_spec validators st 0
  refine ⟨outs, h1, h2, h3, ?_⟩
  intro v hvv
  obtain ⟨g1, g2, g3, _, g5, g6⟩ := h4 v hvv
  cases hl : outs.getLast? with
  | none => rw [List.getLast?_eq_none_iff] at hl; exact absurd hl (g6 hv)
  | some last =>
    refine ⟨last, rfl, ?_, ?_, ?_, ?_⟩
    · rw [good_iff, g1, hl]; simp
    · rw [g2, hl]; simp
    · rw [g3, hl]; simp
    · intro hc; exact g5 (by rw [hl]; simpa using hc)

omit [DecidableEq I] in
/-- C36. For validators with fixed results and no effects: those up to and including the first that is not plainly true run, and only
those. -/
theorem C36_fixed_results (optional isEmpty : Bool) (h : ¬ (isEmpty = true ∧ optional = true)) (rs : List VResult) (hv : rs ≠ []) (st : VState I D) :
    ∃ v, (validateElement optional isEmpty (rs.map fun r => (fun st => (st, .ok r) : Validator I D)) st).2.2 = .ok v ∧
      (Good v ↔ ∀ pre r post, rs = pre ++ r :: post → (∀ p ∈ pre, p = .truthy) → r = .truthy ∨ r = .skip ∨ r = .skipAll) ∧
      ∀ pre r post, rs = pre ++ r :: post → (∀ p ∈ pre, p = .truthy) → r ≠ .truthy →
        (validateElement optional isEmpty (rs.map fun r => (fun st => (st, .ok r) : Validator I D)) st).2.1 =
          (pre ++ [r]).zipIdx.map (fun p => Signal.validator p.2 p.1) := by
  have hrun : validateElement optional isEmpty (rs.map fun r => (fun st => (st, .ok r) : Validator I D)) st =
      validatorLoop st 0 (rs.map fun r => (fun st => (st, .ok r) : Validator I D)) := by
    unfold validateElement
    rw [if_neg (by simpa using h)]
    cases rs with
    | nil => exact absurd rfl hv
    | cons _ _ => rfl
  rw [hrun]
  clear hrun hv h
  have gen : ∀ (rs : List VResult) (k : Nat), ∃ v, (validatorLoop st k (rs.map fun r => (fun st => (st, .ok r) : Validator I D))).2.2 = .ok v ∧
      (Good v ↔ ∀ pre r post, rs = pre ++ r :: post → (∀ p ∈ pre, p = .truthy) → r = .truthy ∨ r = .skip ∨ r = .skipAll) ∧
      ∀ pre r post, rs = pre ++ r :: post → (∀ p ∈ pre, p = .truthy) → r ≠ .truthy →
        (validatorLoop st k (rs.map fun r => (fun st => (st, .ok r) : Validator I D))).2.1 =
          ((pre ++ [r]).zipIdx k).map (fun p => Signal.validator p.2 p.1) := by
    intro rs
    induction rs with
    | nil =>
      intro k
      refine ⟨.yes, rfl, ?_, ?_⟩
      · simp [Good]
      · intro pre r post hp; simp at hp
    | cons r rs ih =>
      intro k
      by_cases hr : r = .truthy
      · subst hr
        obtain ⟨v, h1, h2, h3⟩ := ih (k + 1)
        refine ⟨v, by simpa [validatorLoop] using h1, ?_, ?_⟩
        · rw [h2]
          constructor
          · intro hall pre r post hp hpre
            cases pre with
            | nil => simp at hp; exact .inl hp.1.symm
            | cons p pre =>
              simp at hp
              exact hall pre r post hp.2 (fun q hq => hpre q (by simp [hq]))
          · intro hall pre r post hp hpre
            exact hall (.truthy :: pre) r post (by rw [hp]; rfl) (by
              intro p hp'; rcases List.mem_cons.1 hp' with rfl | hp'
              · rfl
              · exact hpre p hp')
        · intro pre r post hp hpre hne
          cases pre with
          | nil => simp at hp; exact absurd hp.1.symm hne
          | cons p pre =>
            simp at hp
            have := h3 pre r post hp.2 (fun q hq => hpre q (by simp [hq])) hne
            obtain ⟨rfl, _⟩ := hp
            simp only [List.map_cons, validatorLoop]
            rw [this]
            simp [List.zipIdx_cons]
      · have stop : ∀ pre r' post, r :: rs = pre ++ r' :: post → (∀ p ∈ pre, p = .truthy) → pre = [] ∧ r' = r := by
          intro pre r' post hp hpre
          cases pre with
          | nil => simp at hp; exact ⟨rfl, hp.1.symm⟩
          | cons p pre => simp at hp; exact absurd (hp.1.trans (hpre p (by simp))) hr
        have concl : ∀ v : Verdict, (Good v ↔ (r = .truthy ∨ r = .skip ∨ r = .skipAll)) →
            (Good v ↔ ∀ pre r' post, r :: rs = pre ++ r' :: post → (∀ p ∈ pre, p = .truthy) → r' = .truthy ∨ r' = .skip ∨ r' = .skipAll) := by
          intro v hv
          rw [hv]
          constructor
          · intro hacc pre r' post hp hpre
            rw [(stop pre r' post hp hpre).2]; exact hacc
          · intro hall; exact hall [] r rs rfl (by simp)
        cases r with
        | truthy => exact absurd rfl hr
        | _ =>
          refine ⟨_, rfl, concl _ (by simp [Good]), ?_⟩
          intro pre r' post hp hpre _
          obtain ⟨rfl, rfl⟩ := stop pre r' post hp hpre
          rfl
  exact gen rs 0

/-! ## C37 -/

/-- C37. Validating twice in a row with deterministic validators that do not modify the data gives the same result, the same visits and
results, and the same flags. -/
theorem C37_repeatable (env : VEnv I D) (view : D → C) (hd : Deterministic env view) (fuel : Nat) (root : I) (st : VState I D) (r : VRun I D)
    (b : Bool) (h : validateTree env fuel root st = some r) (hb : r.result = .ok b) :
    ∃ r', validateTree env fuel root r.state = some r' ∧ r'.result = .ok b ∧ r'.downs = r.downs ∧ r'.ups = r.ups ∧
      r'.state.flag = r.state.flag := by
  obtain ⟨st1, downs, valid, h1, h2, h3⟩ := validateTree_ok h hb
  obtain ⟨g1, g2, g3, g4⟩ := descend_flags hd.flags st fuel (by simp) (by simp) (by simp) (by simp) h1
  have hv1 : view st1.data = view st.data := (descend_view hd fuel (st2 := st) rfl _ _ _ h1).1
  have hasc := ascend_view hd (downs.map Prod.fst) g1 (st1 := st1) (st2 := st1) rfl (fun _ _ => rfl) [] valid
  rw [h3] at hasc
  have hv2 : view st.data = view r.state.data := by rw [hasc.2, hv1]
  obtain ⟨_, st2, k1, k2⟩ := descend_view hd fuel hv2 _ _ _ h1
  obtain ⟨_, e2, _, _⟩ := descend_flags hd.flags r.state fuel (by simp) (by simp) (by simp) (by simp) k1
  have hflags : ∀ i ∈ downs.map Prod.fst, st1.flag i = st2.flag i := by
    intro i hi
    obtain ⟨⟨j, v⟩, hj, rfl⟩ := List.mem_map.1 hi
    rw [g2 j v hj, e2 j v hj]
  have hasc2 := (ascend_view hd (downs.map Prod.fst) g1 k2 hflags [] valid).1
  rw [h3] at hasc2
  cases hA : ascend env (downs.map Prod.fst) st2 [] valid with
  | mk s rest =>
    obtain ⟨u, res⟩ := rest
    rw [hA] at hasc2
    simp only [Prod.mk.injEq] at hasc2
    obtain ⟨rfl, rfl⟩ := hasc2
    have hrun : validateTree env fuel root r.state = some ⟨s, downs.reverse, r.ups, .ok b⟩ := by
      simp only [validateTree, k1, hA]
    refine ⟨_, hrun, rfl, h2.symm, rfl, ?_⟩
    obtain ⟨f1, f2⟩ := C34_flags env hd.flags fuel root r.state _ b hrun rfl
    obtain ⟨f3, f4⟩ := C34_flags env hd.flags fuel root st r b h hb
    obtain ⟨_, hrev⟩ := C34_each_once env hd.flags fuel root st r b h hb
    funext i
    by_cases hi : i ∈ r.downs.map Prod.fst
    · have hi2 : i ∈ r.ups.map Prod.fst := by rw [hrev]; simpa using hi
      obtain ⟨⟨x1, d⟩, m1, rfl⟩ := List.mem_map.1 hi
      obtain ⟨⟨x2, u⟩, m2, he⟩ := List.mem_map.1 hi2
      simp only at he
      subst he
      rw [f3 x2 d u m1 m2]
      exact f1 x2 d u (by simp only; rw [← h2]; exact m1) m2
    · exact f2 i (by simp only; rw [← h2]; exact hi)

omit [DecidableEq I] in
/-- C37. The hypothesis holds for elements of any classes if no validator assigns `valid` or changes what validators look at, and
validators, `children` and `is_empty` are functions of that. -/
theorem C37_class_validators (children : VState I D → I → List I) (cls : I → VClass I D) (view : D → C)
    (hc : ∀ st st' i, view st.data = view st'.data → children st i = children st' i)
    (he : ∀ i d d', view d = view d' → (cls i).isEmpty d = (cls i).isEmpty d')
    (h0 : ∀ i fn, VClass.runs (cls i) fn → ∀ st, (fn st).1.flag = st.flag)
    (h1 : ∀ i fn, VClass.runs (cls i) fn → ∀ st st', view st.data = view st'.data → (fn st).2 = (fn st').2)
    (h2 : ∀ i fn, VClass.runs (cls i) fn → ∀ st, view (fn st).1.data = view st.data) : Deterministic (VEnv.ofClasses children cls) view :=
  ofClasses_deterministic children cls view hc he h0 h1 h2

/-- C37. Messages are never listed twice, whatever messages are added in whatever order, and none is lost. -/
theorem C37_no_duplicate_messages {M : Type} [DecidableEq M] (ms : List M) :
    (ms.foldl addMessage []).Nodup ∧ ∀ m, m ∈ ms.foldl addMessage [] ↔ m ∈ ms := by
  have : ∀ (ms acc : List M), acc.Nodup → (ms.foldl addMessage acc).Nodup ∧ ∀ m, m ∈ ms.foldl addMessage acc ↔ m ∈ acc ∨ m ∈ ms := by
    intro ms
    induction ms with
    | nil => intro acc h; exact ⟨h, by simp⟩
    | cons x ms ih =>
      intro acc h
      rw [List.foldl_cons]
      have hn : (addMessage acc x).Nodup := by
        unfold addMessage
        split
        · exact h
        · rename_i hx
          rw [List.nodup_append]
          refine ⟨h, by simp, ?_⟩
          intro a ha b hb
          simp at hb; subst hb
          rintro rfl; exact hx ha
      obtain ⟨h1, h2⟩ := ih _ hn
      refine ⟨h1, fun m => ?_⟩
      rw [h2]
      unfold addMessage
      split
      · rename_i hx
        rw [List.mem_cons]
        constructor
        · rintro (h' | h')
          · exact .inl h'
          · exact .inr (.inr h')
        · rintro (h' | rfl | h')
          · exact .inl h'
          · exact .inl hx
          · exact .inr h'
      · simp [or_assoc]
  obtain ⟨h1, h2⟩ := this ms [] (by simp)
  exact ⟨h1, by simpa using h2⟩

/-! ## C38 -/

/-- C38. `all_valid` is True iff every element of the subtree is valid (or not yet evaluated). -/
theorem C38_get (kids : I → List I) (fuel : Nat) (root : I) (st : VState I D) (b : Bool) (h : getAllValid kids fuel root st = some b) :
    b = true ↔ ∀ x, Within kids root x → st.flag x ≠ .no := by
  simp only [← flag_truth_iff]
  unfold getAllValid at h
  split at h
  · rename_i hroot
    cases hl : allChildrenIds kids fuel root with
    | none => rw [hl] at h; cases h
    | some l =>
      rw [hl] at h
      simp only [Option.map_some, Option.some.injEq] at h
      rw [← h, List.all_eq_true]
      obtain ⟨_, hspec⟩ := allChildrenIds_spec hl
      constructor
      · intro h' x hx
        by_cases hxr : x = root
        · subst hxr; exact hroot
        · exact h' x ((hspec x).2 ⟨hxr, hx⟩)
      · intro h' x hx; exact h' x ((hspec x).1 hx).2
  · rename_i hroot
    cases h
    constructor
    · intro h'; cases h'
    · intro h'; exact absurd (h' root .root) hroot

/-- C38. Setting `all_valid` marks the element and everything below it, and nothing else. -/
theorem C38_set (kids : I → List I) (fuel : Nat) (root : I) (x : Flag) (st st' : VState I D) (h : setAllValid kids fuel root x st = some st') (i : I) :
    (Within kids root i → st'.flag i = x) ∧ (¬ Within kids root i → st'.flag i = st.flag i) := by
  unfold setAllValid at h
  cases hl : allChildrenIds kids fuel root with
  | none => rw [hl] at h; cases h
  | some l =>
    rw [hl] at h
    simp only [Option.map_some, Option.some.injEq] at h
    obtain ⟨_, hspec⟩ := allChildrenIds_spec hl
    have gen : ∀ (l : List I) (s : VState I D), (l.foldl (fun st i => st.setFlag i x) s).flag i = if i ∈ l then x else s.flag i := by
      intro l
      induction l with
      | nil => intro s; simp
      | cons j l ih =>
        intro s
        rw [List.foldl_cons, ih]
        by_cases h1 : i ∈ l
        · simp [h1]
        · by_cases h2 : i = j
          · subst h2; simp [h1, setFlag_same]
          · simp [h1, h2, setFlag_other]
    rw [← h, gen]
    constructor
    · intro hw
      by_cases hi : i = root
      · subst hi; simp [setFlag_same]
      · rw [if_pos ((hspec i).2 ⟨hi, hw⟩)]
    · intro hw
      have hi : i ≠ root := fun he => hw (he ▸ .root)
      rw [if_neg fun hm => hw ((hspec i).1 hm).2, setFlag_other _ _ hi]

/-- C38. Reading `all_valid` after setting it gives the value set: False if False was set, True if True (or Unevaluated, which is true). -/
theorem C38_set_get (kids : I → List I) (fuel fuel' : Nat) (root : I) (w : Flag) (b : Bool) (st st' : VState I D)
    (h : setAllValid kids fuel root w st = some st') (hg : getAllValid kids fuel' root st' = some b) : b = true ↔ w ≠ .no := by
  have hset := C38_set kids fuel root w st st' h
  rw [C38_get kids fuel' root st' b hg]
  constructor
  · intro hall
    have := hall root .root
    rwa [(hset root).1 .root] at this
  · intro hb x hx
    rwa [(hset x).1 hx]

/-- C38. For finitely many elements both end. -/
theorem C38_terminates (kids : I → List I) (root : I) (hfin : Finite kids root) : ∃ fuel l, allChildrenIds kids fuel root = some l := by
  obtain ⟨U, hroot, hU⟩ := hfin
  let n := (kids root).length + pendingKids kids U [root] + 1
  have := allChildren_terminates kids root U hU n (kids root) (hU root hroot) [] (by simp [n])
  cases hl : allChildrenLoop kids root n (kids root) [] with
  | none => exact absurd hl this
  | some l => exact ⟨n, l, hl⟩

/-! ## C39 -/

/-- C39. At a position `0 ≤ p ≤ len` the new validators are spliced in, consecutively and in order, after the first `p` old ones. -/
theorem C39_at_position {V : Type} (old new : List V) (p : Nat) (hp : p ≤ old.length) :
    ∃ before after, old = before ++ after ∧ before.length = p ∧ includingValidators old new p = before ++ new ++ after := by
  refine ⟨old.take p, old.drop p, (List.take_append_drop p old).symm, by simp [hp], ?_⟩
  unfold includingValidators
  have h1 : ¬ ((p : Int) < 0) := by omega
  simp only [h1, if_false, Int.toNat_natCast, Nat.min_eq_right hp]

/-- C39. Position -1, the default, appends; -k inserts before the last k-1. -/
theorem C39_negative_position {V : Type} (old new : List V) (k : Nat) (hk : 1 ≤ k) (hle : k ≤ old.length + 1) :
    ∃ before after, old = before ++ after ∧ after.length = k - 1 ∧ includingValidators old new (-k) = before ++ new ++ after := by
  have e : includingValidators old new (-(k : Int)) = includingValidators old new ((old.length + 1 - k : Nat) : Int) := by
    unfold includingValidators
    have h1 : (-(k : Int)) < 0 := by omega
    have h2 : ¬ (((old.length + 1 - k : Nat) : Int) < 0) := by omega
    have h3 : (old.length : Int) + 1 + -(k : Int) = ((old.length + 1 - k : Nat) : Int) := by omega
    simp only [h1, if_true, h2, if_false, h3]
  rw [e]
  obtain ⟨before, after, h1, h2, h3⟩ := C39_at_position old new (old.length + 1 - k) (by omega)
  refine ⟨before, after, h1, ?_, h3⟩
  have := congrArg List.length h1
  rw [List.length_append] at this
  omega

/-- C39. Beyond the end: appended. -/
theorem C39_beyond_end {V : Type} (old new : List V) (p : Nat) (hp : old.length ≤ p) : includingValidators old new p = old ++ new := by
  unfold includingValidators
  have h1 : ¬ ((p : Int) < 0) := by omega
  simp only [h1, if_false, Int.toNat_natCast, Nat.min_eq_left hp]
  simp

/-- C39. Whatever the position, the result contains the old validators in order and the new ones consecutively; none is lost. -/
theorem C39_always_a_splice {V : Type} (old new : List V) (p : Int) :
    ∃ before after, old = before ++ after ∧ includingValidators old new p = before ++ new ++ after :=
  ⟨_, _, (List.take_append_drop _ old).symm, rfl⟩

/-- C39, out of range: a position below -(len+1) wraps around once more instead of meaning "first". -/
theorem C39_wraps_around : includingValidators ['a', 'b'] ['x'] (-4) = ['a', 'x', 'b'] := by decide

/-! ## the hypotheses are met -/
section examples

/-- 0 has children 1 and 2; 1 has child 3 -/
def exKids : Nat → List Nat
  | 0 => [1, 2]
  | 1 => [3]
  | _ => []

/-- a container 0 (valid upwards) with a container 1 and a scalar 2; results by table -/
def exEnv (down up : Nat → Verdict) : VEnv Nat Unit where
  children := fun _ => exKids
  down := fun i st => (st, .ok (down i))
  up := fun i st => (st, .ok (up i))

def exStart : VState Nat Unit := ⟨fun _ => .unevaluated, ()⟩

example : (validateTree (exEnv (fun _ => .yes) (fun i => if i = 2 then .no else .yes)) 20 0 exStart).map (fun r => (r.downs, r.ups, r.result)) =
    some ([(0, .yes), (1, .yes), (2, .yes), (3, .yes)], [(3, .yes), (2, .no), (1, .yes), (0, .yes)], .ok false) := by rfl
example : (validateTree (exEnv (fun i => if i = 1 then .skipAll else .yes) (fun _ => .yes)) 20 0 exStart).map (fun r => (r.downs, r.ups, r.result)) =
    some ([(0, .yes), (1, .skipAll), (2, .yes)], [(2, .yes), (1, .yes), (0, .yes)], .ok true) := by rfl
example (d u) : FlagsUntouched (exEnv d u) := fun _ _ => ⟨rfl, rfl⟩
example (d u) : StaticKids (exEnv d u) exKids := fun _ _ => rfl
example (d u) : Deterministic (exEnv d u) id := ⟨fun _ _ => ⟨rfl, rfl⟩, fun _ _ _ _ => rfl, fun _ _ _ _ => rfl, fun _ _ _ _ => rfl, fun _ _ => rfl, fun _ _ => rfl⟩
theorem exKids_tree : IsTree exKids 0 := by
  constructor
  · intro p; unfold exKids; split <;> simp
  · intro p q x hp hq
    unfold exKids at hp hq
    split at hp <;> split at hq <;> simp_all <;> omega
example : IsTree exKids 0 := exKids_tree
example : Finite exKids 0 := ⟨[0, 1, 2, 3], by simp, by intro i hi x hx; unfold exKids at hx; split at hx <;> simp_all; omega⟩
example : Below exKids 0 3 := .deeper (z := 1) (.child (by simp [exKids])) (by simp [exKids])
-- a chain: the third validator is not run
example : (validateElement false false [fun st => (st, .ok .truthy), fun st => (st, .ok .none), fun st => (st, .ok .truthy)] exStart).2 =
    ([.validator 0 .truthy, .validator 1 .none], .ok .no) := by rfl
-- marking a subtree
example : (setAllValid exKids 9 1 .no exStart).map (fun st => [0, 1, 2, 3].map st.flag) = some [.unevaluated, .no, .unevaluated, .no] := by rfl

/-- C34, the exception: a validator result that is false but no int, such as '', makes `validate()` raise TypeError. -/
theorem C34_false_object_raises (up : Nat → Verdict) :
    (validateTree (exEnv (fun _ => .noObj) up) 20 0 exStart).map (fun r => r.result) = some (.error .type) := by rfl

/-- C34: without recursion, a container that fails on the way down and passes on the way up counts as valid; with recursion it does not. -/
theorem C34_non_recursive_differs :
    (validateOne (exEnv (fun _ => .no) (fun _ => .yes)) 2 exStart).2 = .ok .yes ∧
      (validateTree (exEnv (fun _ => .no) (fun _ => .yes)) 20 2 exStart).map (fun r => r.result) = some (.ok false) := ⟨rfl, rfl⟩

/-- C35: skipped descendants keep flags from earlier runs, so `all_valid` can be False although `validate()` returned True. -/
theorem C35_stale_flags_remain : ∃ (st : VState Nat Unit) (r : VRun Nat Unit),
    validateTree (exEnv (fun i => if i = 0 then .skipAll else .yes) (fun _ => .yes)) 20 0 st = some r ∧ r.result = .ok true ∧
      getAllValid exKids 20 0 r.state = some false :=
  ⟨exStart.setFlag 3 .no, _, rfl, rfl, rfl⟩

end examples

end Flatland
