import Verif.Spec.TreeRules
import Verif.Spec.Paths
import Verif.Proofs.Values
/-! Lemmas for C79. -/
namespace Flatland
open Flatland.Spec

/-! ### the same content -/

/-- related results of a lookup -/
def SameOpt : Option Elem → Option Elem → Prop
  | none, none => True
  | some a, some b => SameContent a b
  | _, _ => False

theorem sameAll_get : ∀ {ks ks' : List Elem}, SameByAll SameData ks ks' → ∀ i : Nat, SameOpt ks[i]? ks'[i]?
  | [], [], _, i => by simp [SameOpt]
  | [], _ :: _, h, _ => by simp [SameByAll] at h
  | _ :: _, [], h, _ => by simp [SameByAll] at h
  | k :: ks, k' :: ks', h, i => by
    rw [SameByAll] at h
    cases i with
    | zero => simpa [SameOpt] using h.1
    | succ i => simpa using sameAll_get h.2 i

theorem sameAll_length : ∀ {ks ks' : List Elem}, SameByAll SameData ks ks' → ks.length = ks'.length
  | [], [], _ => rfl
  | [], _ :: _, h => by simp [SameByAll] at h
  | _ :: _, [], h => by simp [SameByAll] at h
  | k :: ks, k' :: ks', h => by
    rw [SameByAll] at h
    simp [sameAll_length h.2]

theorem same_kids {e e' : Elem} (h : SameContent e e') : SameByAll SameData e.kids e'.kids := by
  cases e <;> cases e' <;> simp only [SameBy] at h <;> simp_all [Elem.kids, SameByAll]

theorem same_elemAt : ∀ (p : Pos) {e e' : Elem}, SameContent e e' → SameOpt (elemAt e p) (elemAt e' p)
  | [], e, e', h => by
    cases e <;> cases e' <;> simp only [SameBy] at h <;> simp_all [elemAt, SameOpt, SameBy]
  | i :: p, e, e', h => by
    have hk := sameAll_get (same_kids h) i
    have key : SameOpt (match e.kids[i]? with | some k => elemAt k p | none => none) (match e'.kids[i]? with | some k => elemAt k p | none => none) := by
      cases h1 : e.kids[i]? <;> cases h2 : e'.kids[i]? <;> rw [h1, h2] at hk <;> simp only [SameOpt] at hk ⊢
      exact same_elemAt p hk
    cases e <;> cases e' <;> simp only [SameBy] at h <;> first | exact key | simp [elemAt, SameOpt]

theorem same_cases {e e' : Elem} (h : SameContent e e') (p : Pos) :
    (elemAt e p = none ∧ elemAt e' p = none) ∨ ∃ a b, elemAt e p = some a ∧ elemAt e' p = some b ∧ SameContent a b := by
  have := same_elemAt p h
  cases h1 : elemAt e p <;> cases h2 : elemAt e' p <;> rw [h1, h2] at this <;> simp only [SameOpt] at this
  · exact .inl ⟨rfl, rfl⟩
  · exact .inr ⟨_, _, rfl, rfl, this⟩

/-- what is read off an element without looking at raw inputs is the same for both -/
theorem same_read {A : Type} (f : Option Elem → A) (hf : ∀ a b, SameContent a b → f (some a) = f (some b)) {e e' : Elem} (h : SameContent e e')
    (p : Pos) : f (elemAt e p) = f (elemAt e' p) := by
  rcases same_cases h p with ⟨h1, h2⟩ | ⟨a, b, h1, h2, hab⟩
  · rw [h1, h2]
  · rw [h1, h2, hf a b hab]

theorem same_isSome {e e' : Elem} (h : SameContent e e') (p : Pos) : (elemAt e p).isSome = (elemAt e' p).isSome :=
  same_read Option.isSome (fun _ _ _ => rfl) h p

theorem same_valid {e e' : Elem} (h : SameContent e e') (n : Node) : n.valid e = n.valid e' := by
  simp only [Node.valid, same_isSome h]
  rcases same_cases h n.pos.dropLast with ⟨h1, h2⟩ | ⟨a, b, h1, h2, hab⟩
  · rw [h1, h2]
  · rw [h1, h2]
    cases a <;> cases b <;> simp only [SameBy] at hab <;> rfl

theorem same_parentNode {e e' : Elem} (h : SameContent e e') : parentNode e = parentNode e' := by
  funext n
  simp only [parentNode, same_valid h]
  rcases same_cases h n.pos.dropLast with ⟨h1, h2⟩ | ⟨a, b, h1, h2, hab⟩
  · rw [h1, h2]
  · rw [h1, h2]
    cases a <;> cases b <;> simp only [SameBy] at hab <;> rfl

theorem same_parents {e e' : Elem} (h : SameContent e e') : parents e = parents e' := by
  funext n
  have : ∀ f (n : Node), parentsLoop e f n = parentsLoop e' f n := by
    intro f
    induction f with
    | zero => intro n; rfl
    | succ f ih => intro n; simp only [parentsLoop, same_parentNode h, ih]
  exact this _ n

theorem same_rootNode {e e' : Elem} (h : SameContent e e') : rootNode e = rootNode e' := by
  funext n; simp only [rootNode, same_parents h]

theorem same_present_at {ks ks' : List Elem} (h : SameByAll SameData ks ks') (i : Nat) {A : Type} (f : Bool → Option PStr → A) (d : A) :
    (match ks[i]? with | some c => f c.present c.name | .none => d) = (match ks'[i]? with | some c => f c.present c.name | .none => d) := by
  have := sameAll_get h i
  cases h1 : ks[i]? <;> cases h2 : ks'[i]? <;> rw [h1, h2] at this <;> simp only [SameOpt] at this <;> try rfl
  obtain ⟨a, b, _⟩ := sameBy_present this
  simp only [a, b]

theorem same_childList {ks ks' : List Elem} (h : SameByAll SameData ks ks') (p : Pos) :
    ((List.range ks.length).filterMap fun i => match ks[i]? with
      | some c => if c.present then some (⟨p ++ [i], false⟩ : Node) else .none
      | .none => .none) =
    ((List.range ks'.length).filterMap fun i => match ks'[i]? with
      | some c => if c.present then some (⟨p ++ [i], false⟩ : Node) else .none
      | .none => .none) := by
  rw [sameAll_length h]
  congr 1
  funext i
  exact same_present_at h i (fun b _ => if b then some (⟨p ++ [i], false⟩ : Node) else .none) .none

theorem same_nodeChildren {e e' : Elem} (h : SameContent e e') : nodeChildren e = nodeChildren e' := by
  funext n
  unfold nodeChildren
  split
  · rfl
  · rcases same_cases h n.pos with ⟨h1, h2⟩ | ⟨a, b, h1, h2, hab⟩
    · rw [h1, h2]
    · rw [h1, h2]
      exact same_childList (same_kids hab) n.pos

theorem same_findIdx {ks ks' : List Elem} (h : SameByAll SameData ks ks') (name : Option PStr) :
    (ks.findIdx? fun k => k.present && k.name == name) = ks'.findIdx? fun k => k.present && k.name == name := by
  induction ks generalizing ks' with
  | nil => cases ks' <;> simp_all [SameByAll]
  | cons k ks ih =>
    cases ks' with
    | nil => simp [SameByAll] at h
    | cons k' ks' =>
      rw [SameByAll] at h
      obtain ⟨a, b, _⟩ := sameBy_present h.1
      simp only [List.findIdx?_cons, a, b, ih h.2]

theorem same_anyPresent {ks ks' : List Elem} (h : SameByAll SameData ks ks') : ks.any Elem.present = ks'.any Elem.present := by
  induction ks generalizing ks' with
  | nil => cases ks' <;> simp_all [SameByAll]
  | cons k ks ih =>
    cases ks' with
    | nil => simp [SameByAll] at h
    | cons k' ks' =>
      rw [SameByAll] at h
      simp only [List.any_cons, (sameBy_present h.1).1, ih h.2]

variable [Runtime]

theorem same_nodeTruthy {e e' : Elem} (h : SameContent e e') : nodeTruthy e = nodeTruthy e' := by
  funext n
  unfold nodeTruthy
  split
  · rfl
  · rcases same_cases h n.pos with ⟨h1, h2⟩ | ⟨a, b, h1, h2, hab⟩
    · rw [h1, h2]
    · rw [h1, h2]
      have hk := same_anyPresent (same_kids hab)
      cases a <;> cases b <;> simp only [SameBy] at hab <;> try exact hk
      simp only [scalarBool, hab.2.1, hab.2.2]

theorem same_nodeIndex {e e' : Elem} (h : SameContent e e') : nodeIndex e = nodeIndex e' := by
  funext n name
  unfold nodeIndex
  split
  · rfl
  · rcases same_cases h n.pos with ⟨h1, h2⟩ | ⟨a, b, h1, h2, hab⟩
    · rw [h1, h2]
    · rw [h1, h2]
      have hi := same_findIdx (same_kids hab) name
      have hl := sameAll_length (same_kids hab)
      cases a <;> cases b <;> simp only [SameBy] at hab <;> simp only [Elem.kids] at hi hl <;> simp only [hi, hl]

theorem same_treeGraph {e e' : Elem} (h : SameContent e e') : treeGraph e = treeGraph e' := by
  simp only [treeGraph, same_rootNode h, same_parentNode h, same_nodeTruthy h, same_nodeIndex h, same_nodeChildren h]

omit [Runtime] in
mutual
theorem same_count : ∀ {e e' : Elem}, SameContent e e' → elemCount e = elemCount e'
  | .scalar .., e', h => by cases e' <;> simp_all [SameBy, elemCount]
  | .absent, e', h => by cases e' <;> simp_all [SameBy, elemCount]
  | .dict _ ks, e', h => by
    cases e' <;> simp only [SameBy] at h
    simp only [elemCount, same_countAll h.2]
  | .list _ ks, e', h => by
    cases e' <;> simp only [SameBy] at h
    simp only [elemCount, same_countAll h.2]
  | .array _ ks, e', h => by
    cases e' <;> simp only [SameBy] at h
    simp only [elemCount, same_countAll h.2]
theorem same_countAll : ∀ {ks ks' : List Elem}, SameByAll SameData ks ks' → elemCountAll ks = elemCountAll ks'
  | [], [], _ => rfl
  | [], _ :: _, h => by simp [SameByAll] at h
  | _ :: _, [], h => by simp [SameByAll] at h
  | k :: ks, k' :: ks', h => by
    rw [SameByAll] at h
    simp only [elemCountAll, same_count h.1, same_countAll h.2]
end

theorem same_findOne {e e' : Elem} (h : SameContent e e') : findOne e = findOne e' := by
  funext n path
  simp only [findOne, findNodes, same_treeGraph h, same_count h]

omit [Runtime] in
theorem same_siblings {e e' : Elem} (h : SameContent e e') : siblingNodes e = siblingNodes e' := by
  funext p
  simp only [siblingNodes, same_parentNode h, same_nodeChildren h]

omit [Runtime] in
theorem same_attr {V : Type} (attr : Elem → V) (ha : ∀ a b, SameContent a b → attr a = attr b) {e e' : Elem} (h : SameContent e e') :
    attrOfFound e attr = attrOfFound e' attr := by
  funext o
  cases o with
  | none => rfl
  | some n =>
    simp only [attrOfFound]
    rw [same_read (fun o => attr (o.getD .absent)) (fun a b hab => by simpa using ha a b hab) h n.pos]

theorem package_looksAtContent {repr : PStr → PStr} {r : FormRule} (hr : PackageRule repr r) : LooksAtContent r := by
  intro e e' h p
  cases hr with
  | @check c noter hn =>
    refine ⟨?_, hn e e' h p⟩
    simp only [checkRule]
    rcases same_cases h p with ⟨h1, h2⟩ | ⟨a, b, h1, h2, hab⟩
    · rw [h1, h2]
    · rw [h1, h2]
      have hv := sameData_value repr a b hab
      simp only [hv.1, hv.2]
      cases a <;> cases b <;> simp only [SameBy] at hab <;> rfl
  | @reading f noter hn =>
    refine ⟨?_, hn e e' h p⟩
    simp only [readingRule]
    rcases same_cases h p with ⟨h1, h2⟩ | ⟨a, b, h1, h2, hab⟩
    · rw [h1, h2]
    · rw [h1, h2]
      have hv := sameData_value repr a b hab
      simp only [hv.1, hv.2]
  | @valuesEqual paths label noter hn hl =>
    refine ⟨?_, hn e e' h p⟩
    have hlab : labelOfFound label e = labelOfFound label e' := by
      funext o; cases o <;> simp [labelOfFound, hl e e' h]
    simp only [valuesEqualRule, fieldsEqual, same_findOne h, hlab, same_attr elemValue (fun a b hab => (sameData_value repr a b hab).1) h]
  | @unisEqual paths label noter hn hl =>
    refine ⟨?_, hn e e' h p⟩
    have hlab : labelOfFound label e = labelOfFound label e' := by
      funext o; cases o <;> simp [labelOfFound, hl e e' h]
    simp only [unisEqualRule, fieldsEqual, same_findOne h, hlab, same_attr (elemU repr) (fun a b hab => (sameData_value repr a b hab).2) h]
  | @notDuplicated noter hn =>
    refine ⟨?_, hn e e' h p⟩
    simp only [notDuplicatedRule, same_siblings h]
    have : (fun a b : Node => sameElement repr ((elemAt e a.pos).getD .absent) ((elemAt e b.pos).getD .absent)) =
        fun a b => sameElement repr ((elemAt e' a.pos).getD .absent) ((elemAt e' b.pos).getD .absent) := by
      funext a b
      simp only [sameElement, elemEq]
      rw [same_read (fun o => elemValue (o.getD .absent)) (fun x y hxy => by simpa using (sameData_value repr x y hxy).1) h a.pos,
        same_read (fun o => elemValue (o.getD .absent)) (fun x y hxy => by simpa using (sameData_value repr x y hxy).1) h b.pos,
        same_read (fun o => elemU repr (o.getD .absent)) (fun x y hxy => by simpa using (sameData_value repr x y hxy).2) h a.pos,
        same_read (fun o => elemU repr (o.getD .absent)) (fun x y hxy => by simpa using (sameData_value repr x y hxy).2) h b.pos]
    rw [this]

omit [Runtime] in
theorem isEmpty_eq_length (ks : List Elem) : ks.isEmpty = decide (ks.length = 0) := by cases ks <;> simp

theorem same_isEmpty {e e' : Elem} (c : FieldRules) (h : SameContent e e') : elemIsEmpty c e = elemIsEmpty c e' := by
  have hk := same_anyPresent (same_kids h)
  have hl := sameAll_length (same_kids h)
  cases e <;> cases e' <;> simp only [SameBy] at h <;> simp only [Elem.kids] at hk hl
  · simp only [elemIsEmpty, stringIsEmpty, h.2.1, h.2.2]
  · simp only [elemIsEmpty, hk]
  · simp only [elemIsEmpty, isEmpty_eq_length, hl]
  · simp only [elemIsEmpty, isEmpty_eq_length, hl]
  · rfl

theorem same_formEnv {e e' : Elem} (h : SameContent e e') {rules : Pos → FieldRules} (hr : RulesLookAtContent rules) :
    formEnv e rules = formEnv e' rules := by
  have hc : formClass e rules = formClass e' rules := by
    funext p
    have h1 : ∀ r ∈ (rules p).validators ++ (rules p).descent, runRule e p r = runRule e' p r := by
      intro r hrm
      obtain ⟨a, b⟩ := hr p r hrm e e' h p
      funext st
      simp only [runRule, a, b]
    have hv : (rules p).validators.map (runRule e p) = (rules p).validators.map (runRule e' p) :=
      List.map_congr_left fun r hm => h1 r (by simp [hm])
    have hd : (rules p).descent.map (runRule e p) = (rules p).descent.map (runRule e' p) :=
      List.map_congr_left fun r hm => h1 r (by simp [hm])
    have hcont : isContainerElem ((elemAt e p).getD .absent) = isContainerElem ((elemAt e' p).getD .absent) :=
      same_read (fun o => isContainerElem (o.getD .absent)) (fun a b hab => by cases a <;> cases b <;> simp_all [SameBy, isContainerElem]) h p
    have hem : elemIsEmpty (rules p) ((elemAt e p).getD .absent) = elemIsEmpty (rules p) ((elemAt e' p).getD .absent) :=
      same_read (fun o => elemIsEmpty (rules p) (o.getD .absent)) (fun a b hab => same_isEmpty _ hab) h p
    simp only [formClass, hcont, hem, hv]
    cases isContainerElem ((elemAt e' p).getD .absent) <;> simp [hv, hd]
  have hp : childPositions e = childPositions e' := by
    funext p; simp only [childPositions, same_nodeChildren h]
  simp only [formEnv, hc, hp]

/-! ### finding ends -/

omit [Runtime] in
theorem sliceCount_le (len : Nat) (step : Int) (a b : Option Int) : sliceCount (sliceStart len step a) (sliceStop len step b) step ≤ len := by
  have h1 : ∀ d s : Int, 0 ≤ s → 1 ≤ d → (d - 1) / s + 1 ≤ d := by
    intro d s hs hd
    have := Int.ediv_le_self s (show 0 ≤ d - 1 by omega)
    omega
  have hs : -1 ≤ sliceStart len step a ∧ sliceStart len step a ≤ len ∧ (step < 0 → sliceStart len step a ≤ len - 1) ∧ (0 ≤ step → 0 ≤ sliceStart len step a) := by
    cases a <;> simp only [sliceStart] <;> (repeat' split) <;> omega
  have ht : -1 ≤ sliceStop len step b ∧ sliceStop len step b ≤ len := by
    cases b <;> simp only [sliceStop] <;> (repeat' split) <;> omega
  unfold sliceCount
  split
  · split
    · have := h1 (sliceStart len step a - sliceStop len step b) (-step) (by omega) (by omega)
      have := hs.2.2.1 (by omega)
      omega
    · omega
  · split
    · have := h1 (sliceStop len step b - sliceStart len step a) step (by omega) (by omega)
      have := hs.2.2.2 (by omega)
      omega
    · omega

omit [Runtime] in
theorem pySlice_length_le {α : Type} (xs : List α) (a b c : Option Int) : (pySlice xs a b c).length ≤ xs.length := by
  simp only [pySlice]
  refine Nat.le_trans (List.length_filterMap_le _ _) ?_
  rw [List.length_range]
  exact sliceCount_le _ _ _ _

omit [Runtime] in
theorem runOps_spread_shorter {N : Type} (g : Graph N) (strict : Bool) {W : Nat} (hW : ∀ n, (g.children n).length ≤ W) :
    ∀ (ops : List Op) (el : N) {ops' els}, runOps g strict ops el = .spread ops' els → ops'.length < ops.length ∧ els.length ≤ W
  | [], el, _, _, h => by simp [runOps] at h
  | .top :: ops, el, _, _, h => by
    simp only [runOps] at h
    have := runOps_spread_shorter g strict hW ops _ h
    exact ⟨by simp; omega, this.2⟩
  | .up :: ops, el, _, _, h => by
    simp only [runOps] at h
    split at h
    · split at h
      · have := runOps_spread_shorter g strict hW ops _ h
        exact ⟨by simp; omega, this.2⟩
      · have := runOps_spread_shorter g strict hW ops _ h
        exact ⟨by simp; omega, this.2⟩
    · have := runOps_spread_shorter g strict hW ops _ h
      exact ⟨by simp; omega, this.2⟩
  | .here :: ops, el, _, _, h => by
    simp only [runOps] at h
    have := runOps_spread_shorter g strict hW ops _ h
    exact ⟨by simp; omega, this.2⟩
  | .name n :: ops, el, _, _, h => by
    simp only [runOps] at h
    split at h
    · have := runOps_spread_shorter g strict hW ops _ h
      exact ⟨by simp; omega, this.2⟩
    · split at h
      · split at h <;> simp at h
      · simp at h
  | .slice a b c :: ops, el, _, _, h => by
    simp only [runOps, Outcome.spread.injEq] at h
    rw [← h.1, ← h.2]
    exact ⟨by simp, Nat.le_trans (pySlice_length_le _ _ _ _) (hW el)⟩

/-- the contexts still to come -/
def workLeft {N : Type} (W : Nat) (q : List (List Op × N)) : Nat := (q.map fun x => (W + 1) ^ x.1.length).sum

omit [Runtime] in
theorem evalLoop_ends {N : Type} (g : Graph N) (strict : Bool) {W : Nat} (hW : ∀ n, (g.children n).length ≤ W) :
    ∀ (f : Nat) (q : List (List Op × N)) (found : List N), workLeft W q ≤ f →
      ∃ r, ∀ m, f ≤ m → evalLoop g strict m q found = some r
  | f, [], found, _ => ⟨.ok found, fun m _ => by cases m <;> simp [evalLoop]⟩
  | 0, (ops, el) :: rest, found, h => by
    exfalso
    simp only [workLeft, List.map_cons, List.sum_cons] at h
    have : 0 < (W + 1) ^ ops.length := Nat.pow_pos (by omega)
    omega
  | f + 1, (ops, el) :: rest, found, h => by
    simp only [workLeft, List.map_cons, List.sum_cons] at h
    have hpos : 0 < (W + 1) ^ ops.length := Nat.pow_pos (by omega)
    have step : ∀ (q' : List (List Op × N)) (found' : List N), workLeft W q' ≤ f →
        (∀ m, evalLoop g strict (m + 1) ((ops, el) :: rest) found = evalLoop g strict m q' found') →
        ∃ r, ∀ m, f + 1 ≤ m → evalLoop g strict m ((ops, el) :: rest) found = some r := by
      intro q' found' hq hm
      obtain ⟨r, hr⟩ := evalLoop_ends g strict hW f q' found' hq
      refine ⟨r, fun m hle => ?_⟩
      obtain ⟨m, rfl⟩ : ∃ k, m = k + 1 := ⟨m - 1, by omega⟩
      rw [hm, hr m (by omega)]
    cases hro : runOps g strict ops el with
    | raised er =>
      refine ⟨.error er, fun m hle => ?_⟩
      obtain ⟨m, rfl⟩ : ∃ k, m = k + 1 := ⟨m - 1, by omega⟩
      simp only [evalLoop, hro]
    | missed => exact step rest found (by simp only [workLeft]; omega) fun m => by simp only [evalLoop, hro]
    | found x => exact step rest (found ++ [x]) (by simp only [workLeft]; omega) fun m => by simp only [evalLoop, hro]
    | spread ops' els =>
      refine step (rest ++ els.map fun c => (ops', c)) found ?_ fun m => by simp only [evalLoop, hro]
      obtain ⟨hlt, hlen⟩ := runOps_spread_shorter g strict hW ops el hro
      simp only [workLeft, List.map_append, List.map_map, List.sum_append, Function.comp_def]
      have h2 : (els.map fun _ => (W + 1) ^ ops'.length).sum = els.length * (W + 1) ^ ops'.length := by
        simp [List.map_const', List.sum_replicate_nat]
      rw [h2]
      have h3 : els.length * (W + 1) ^ ops'.length ≤ W * (W + 1) ^ ops'.length := Nat.mul_le_mul_right _ hlen
      have h4 : (W + 1) ^ (ops'.length + 1) ≤ (W + 1) ^ ops.length := Nat.pow_le_pow_right (by omega) hlt
      have h5 : (W + 1) ^ (ops'.length + 1) = W * (W + 1) ^ ops'.length + (W + 1) ^ ops'.length := by
        rw [Nat.pow_succ, Nat.mul_comm, Nat.add_mul, Nat.one_mul]
      have h6 : 0 < (W + 1) ^ ops'.length := Nat.pow_pos (by omega)
      omega

omit [Runtime] in
mutual
theorem kids_le_count : ∀ (e : Elem), e.kids.length ≤ elemCount e ∧ ∀ k ∈ e.kids, elemCount k ≤ elemCount e
  | .scalar .. => by simp [Elem.kids]
  | .absent => by simp [Elem.kids]
  | .dict _ ks => by
    have := kids_le_countAll ks
    simp only [Elem.kids, elemCount]
    exact ⟨by omega, fun k hk => by have := this.2 k hk; omega⟩
  | .list _ ks => by
    have := kids_le_countAll ks
    simp only [Elem.kids, elemCount]
    exact ⟨by omega, fun k hk => by have := this.2 k hk; omega⟩
  | .array _ ks => by
    have := kids_le_countAll ks
    simp only [Elem.kids, elemCount]
    exact ⟨by omega, fun k hk => by have := this.2 k hk; omega⟩
theorem kids_le_countAll : ∀ (ks : List Elem), ks.length ≤ elemCountAll ks ∧ ∀ k ∈ ks, elemCount k ≤ elemCountAll ks
  | [] => by simp
  | k :: ks => by
    have h1 := kids_le_countAll ks
    have h2 : 1 ≤ elemCount k := by cases k <;> simp [elemCount]
    simp only [elemCountAll, List.length_cons]
    refine ⟨by omega, fun x hx => ?_⟩
    rcases List.mem_cons.1 hx with rfl | hx
    · omega
    · have := h1.2 x hx; omega
end

omit [Runtime] in
theorem elemAt_count : ∀ (p : Pos) (e k : Elem), elemAt e p = some k → elemCount k ≤ elemCount e
  | [], e, k, h => by
    cases e <;> simp [elemAt] at h <;> subst h <;> exact Nat.le_refl _
  | i :: p, e, k, h => by
    have key : (match e.kids[i]? with | some k => elemAt k p | none => none) = some k → elemCount k ≤ elemCount e := by
      intro h
      cases h1 : e.kids[i]? with
      | none => rw [h1] at h; simp at h
      | some c =>
        rw [h1] at h
        have := elemAt_count p c k h
        have := (kids_le_count e).2 c (List.mem_of_getElem? h1)
        omega
    cases e <;> first | (simp [elemAt] at h; done) | exact key h

omit [Runtime] in
theorem children_le_count (e : Elem) (n : Node) : (nodeChildren e n).length ≤ elemCount e := by
  unfold nodeChildren
  split
  · simp
  · split
    · rename_i k hk
      refine Nat.le_trans (List.length_filterMap_le _ _) ?_
      rw [List.length_range]
      exact Nat.le_trans (kids_le_count k).1 (elemAt_count _ _ _ hk)
    · simp

theorem find_enough (e : Elem) (strict : Bool) (n : Node) (ops : List Op) :
    ∃ r, ∀ m, (elemCount e + 1) ^ ops.length ≤ m → evalLoop (treeGraph e) strict m [(ops, n)] [] = some r := by
  refine evalLoop_ends (treeGraph e) strict (W := elemCount e) (fun n => children_le_count e n) _ _ _ ?_
  simp [workLeft]

end Flatland
