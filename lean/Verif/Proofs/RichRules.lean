import Verif.Spec.RichRules
import Verif.Proofs.TreeRules
import Verif.Proofs.RichValidation
/-! Lemmas for C99. -/
namespace Flatland
open Flatland.Spec

theorem sameRich_shape {e e' : NElem} (h : SameRich e e') : SameContent (shape e) (shape e') := go e e' h
where
  go : ∀ (e e' : NElem), SameRich e e' → SameContent (shape e) (shape e')
    | .absent, e', h => by cases e' <;> simp_all [SameRich, shape, SameBy]
    | .scalar .., e', h => by cases e' <;> simp_all [SameRich, shape, SameBy]
    | .dict _ ks, e', h => by
      cases e' <;> simp only [SameRich] at h
      exact ⟨h.1, goAll ks _ h.2⟩
    | .list _ ks, e', h => by
      cases e' <;> simp only [SameRich] at h
      exact ⟨h.1, goAll ks _ h.2⟩
    | .array _ ks, e', h => by
      cases e' <;> simp only [SameRich] at h
      exact ⟨h.1, goAll ks _ h.2⟩
    | .compound _ _ _ ks, e', h => by
      cases e' <;> simp only [SameRich] at h
      exact ⟨h.1, goAll ks _ h.2.2.2⟩
    | .joined _ _ ks, e', h => by
      cases e' <;> simp only [SameRich] at h
      exact ⟨h.1, goAll ks _ h.2.2⟩
  goAll : ∀ (ks ks' : List NElem), SameRichAll ks ks' → SameByAll SameData (shapes ks) (shapes ks')
    | [], ks', h => by cases ks' <;> simp_all [SameRichAll, shapes, SameByAll]
    | k :: ks, ks', h => by
      cases ks' with
      | nil => simp [SameRichAll] at h
      | cons k' ks' =>
        rw [SameRichAll] at h
        exact ⟨go k k' h.1, goAll ks ks' h.2⟩

theorem sameRich_kids {e e' : NElem} (h : SameRich e e') : SameRichAll e.kids e'.kids := by
  cases e <;> cases e' <;> simp only [SameRich] at h <;> simp_all [NElem.kids, SameRichAll]

theorem sameRichAll_get {ks ks' : List NElem} (h : SameRichAll ks ks') (i : Nat) :
    (ks[i]? = none ∧ ks'[i]? = none) ∨ ∃ a b, ks[i]? = some a ∧ ks'[i]? = some b ∧ SameRich a b := by
  induction ks generalizing ks' i with
  | nil => cases ks' <;> simp_all [SameRichAll]
  | cons k ks ih =>
    cases ks' with
    | nil => simp [SameRichAll] at h
    | cons k' ks' =>
      rw [SameRichAll] at h
      cases i with
      | zero => exact .inr ⟨k, k', rfl, rfl, h.1⟩
      | succ i => simpa using ih h.2 i

theorem sameRich_cases : ∀ (p : Pos) {e e' : NElem}, SameRich e e' →
    (nElemAt e p = none ∧ nElemAt e' p = none) ∨ ∃ a b, nElemAt e p = some a ∧ nElemAt e' p = some b ∧ SameRich a b
  | [], e, e', h => .inr ⟨e, e', rfl, rfl, h⟩
  | i :: p, e, e', h => by
    simp only [nElemAt]
    rcases sameRichAll_get (sameRich_kids h) i with ⟨h1, h2⟩ | ⟨a, b, h1, h2, hab⟩
    · simp [h1, h2]
    · rw [h1, h2]; exact sameRich_cases p hab

theorem sameRich_read {A : Type} (f : Option NElem → A) (hf : ∀ a b, SameRich a b → f (some a) = f (some b)) {e e' : NElem} (h : SameRich e e')
    (p : Pos) : f (nElemAt e p) = f (nElemAt e' p) := by
  rcases sameRich_cases p h with ⟨h1, h2⟩ | ⟨a, b, h1, h2, hab⟩
  · rw [h1, h2]
  · rw [h1, h2, hf a b hab]

theorem sameRich_present {e e' : NElem} (h : SameRich e e') : e.present = e'.present ∧ nName e = nName e' ∧ isContainerN e = isContainerN e' := by
  cases e <;> cases e' <;> simp only [SameRich] at h <;> simp_all [NElem.present, nName, isContainerN]

theorem sameRich_count : ∀ (ks ks' : List NElem), SameRichAll ks ks' →
    ks.length = ks'.length ∧ (ks.filter NElem.present).length = (ks'.filter NElem.present).length ∧ ks.any NElem.present = ks'.any NElem.present
  | [], ks', h => by cases ks' <;> simp_all [SameRichAll]
  | k :: ks, ks', h => by
    cases ks' with
    | nil => simp [SameRichAll] at h
    | cons k' ks' =>
      rw [SameRichAll] at h
      obtain ⟨h1, h2, h3⟩ := sameRich_count ks ks' h.2
      have hp := (sameRich_present h.1).1
      refine ⟨by simp [h1], ?_, by simp [hp, h3]⟩
      simp only [List.filter_cons, hp]
      split <;> simp [h2]

mutual
theorem sameRich_value (repr : PStr → PStr) : ∀ (e e' : NElem), SameRich e e' → nValue e = nValue e' ∧ nText repr e = nText repr e'
  | .absent, e', h => by cases e' <;> simp_all [SameRich]
  | .scalar .., e', h => by cases e' <;> simp_all [SameRich, nValue, nText, SameData]
  | .dict _ ks, e', h => by
    cases e' <;> simp only [SameRich] at h
    obtain ⟨h1, _, h3, _⟩ := sameRich_values repr ks _ h.2
    simp only [nValue, nText, h1, h3, and_self]
  | .list _ ks, e', h => by
    cases e' <;> simp only [SameRich] at h
    obtain ⟨_, h2, _, h4⟩ := sameRich_values repr ks _ h.2
    simp only [nValue, nText, h2, h4, and_self]
  | .array _ ks, e', h => by
    cases e' <;> simp only [SameRich] at h
    obtain ⟨_, h2, _, h4⟩ := sameRich_values repr ks _ h.2
    simp only [nValue, nText, h2, h4, and_self]
  | .compound .., e', h => by cases e' <;> simp_all [SameRich, nValue, nText]
  | .joined .., e', h => by cases e' <;> simp_all [SameRich, nValue, nText]
theorem sameRich_values (repr : PStr → PStr) : ∀ (ks ks' : List NElem), SameRichAll ks ks' →
    nItems ks = nItems ks' ∧ nValues ks = nValues ks' ∧ nPairTexts repr ks = nPairTexts repr ks' ∧ nTexts repr ks = nTexts repr ks'
  | [], ks', h => by cases ks' <;> simp_all [SameRichAll]
  | k :: ks, ks', h => by
    cases ks' with
    | nil => simp [SameRichAll] at h
    | cons k' ks' =>
      rw [SameRichAll] at h
      obtain ⟨h1, h2⟩ := sameRich_value repr k k' h.1
      obtain ⟨h3, h4, h5, h6⟩ := sameRich_values repr ks ks' h.2
      obtain ⟨hp, hn, hc⟩ := sameRich_present h.1
      simp only [nItems, nValues, nPairTexts, nTexts, nQuoted, h1, h2, h3, h4, h5, h6, hp, hn, hc, and_self]
end

variable [Runtime]

theorem sameRich_truthy {e e' : NElem} (h : SameRich e e') : nTruthy e = nTruthy e' := by
  have hk := (sameRich_count _ _ (sameRich_kids h)).2.2
  cases e <;> cases e' <;> simp only [SameRich] at h <;> try exact hk
  · simp only [nTruthy, scalarBool, h.2.1, h.2.2]
  · simp only [nTruthy, h.2.1, h.2.2.1]
  · simp only [nTruthy, h.2.1]

theorem sameRich_graph {e e' : NElem} (h : SameRich e e') : richGraph e = richGraph e' := by
  unfold richGraph
  rw [same_treeGraph (sameRich_shape h)]
  simp only [Graph.mk.injEq, true_and, and_true]
  funext n
  rcases sameRich_cases n.pos h with ⟨h1, h2⟩ | ⟨a, b, h1, h2, hab⟩
  · rw [h1, h2]
  · rw [h1, h2]
    simp only [sameRich_truthy hab]

theorem sameRich_findOne {e e' : NElem} (h : SameRich e e') : richFindOne e = richFindOne e' := by
  funext n path
  simp only [richFindOne, richFind, sameRich_graph h, same_count (sameRich_shape h)]

omit [Runtime] in
theorem sameRich_attr {V : Type} (attr : NElem → V) (ha : ∀ a b, SameRich a b → attr a = attr b) {e e' : NElem} (h : SameRich e e') :
    richAttrOfFound e attr = richAttrOfFound e' attr := by
  funext o
  cases o with
  | none => rfl
  | some n =>
    simp only [richAttrOfFound]
    rw [sameRich_read (fun o => attr (o.getD .absent)) (fun a b hab => by simpa using ha a b hab) h n.pos]

theorem richPackage_content {repr : PStr → PStr} {r : RichRule} (hr : RichPackageRule repr r) : RichContentRule r := by
  intro e e' h p
  cases hr with
  | @reading f noter hn =>
    refine ⟨?_, hn e e' h p⟩
    simp only [richReadingRule]
    rcases sameRich_cases p h with ⟨h1, h2⟩ | ⟨a, b, h1, h2, hab⟩
    · rw [h1, h2]
    · rw [h1, h2]
      have hv := sameRich_value repr a b hab
      simp only [hv.1, hv.2, (sameRich_count _ _ (sameRich_kids hab)).2.1]
  | @valuesEqual paths label noter hn hl =>
    refine ⟨?_, hn e e' h p⟩
    have hlab : richLabelOfFound label e = richLabelOfFound label e' := by
      funext o; cases o <;> simp [richLabelOfFound, hl e e' h]
    simp only [richValuesEqual, richFieldsEqual, sameRich_findOne h, hlab, sameRich_attr nValue (fun a b hab => (sameRich_value repr a b hab).1) h]
  | @unisEqual paths label noter hn hl =>
    refine ⟨?_, hn e e' h p⟩
    have hlab : richLabelOfFound label e = richLabelOfFound label e' := by
      funext o; cases o <;> simp [richLabelOfFound, hl e e' h]
    simp only [richUnisEqual, richFieldsEqual, sameRich_findOne h, hlab, sameRich_attr (nText repr) (fun a b hab => (sameRich_value repr a b hab).2) h]
  | @notDuplicated noter hn =>
    refine ⟨?_, hn e e' h p⟩
    simp only [richNotDuplicated, same_siblings (sameRich_shape h)]
    have : (fun a b : Node => (Except.ok (nEq repr ((nElemAt e a.pos).getD .absent) ((nElemAt e b.pos).getD .absent)) : Except PyErr Bool)) =
        fun a b => .ok (nEq repr ((nElemAt e' a.pos).getD .absent) ((nElemAt e' b.pos).getD .absent)) := by
      funext a b
      simp only [nEq]
      rw [sameRich_read (fun o => nValue (o.getD .absent)) (fun x y hxy => by simpa using (sameRich_value repr x y hxy).1) h a.pos,
        sameRich_read (fun o => nValue (o.getD .absent)) (fun x y hxy => by simpa using (sameRich_value repr x y hxy).1) h b.pos,
        sameRich_read (fun o => nText repr (o.getD .absent)) (fun x y hxy => by simpa using (sameRich_value repr x y hxy).2) h a.pos,
        sameRich_read (fun o => nText repr (o.getD .absent)) (fun x y hxy => by simpa using (sameRich_value repr x y hxy).2) h b.pos]
    rw [this]

omit [Runtime] in
theorem isEmpty_of_length (ks : List NElem) : ks.isEmpty = decide (ks.length = 0) := by cases ks <;> simp

mutual
theorem sameRich_isEmpty (rules : Pos → RichField) : ∀ (p : Pos) (e e' : NElem), SameRich e e' → nIsEmpty rules p e = nIsEmpty rules p e'
  | p, .absent, e', h => by cases e' <;> simp_all [SameRich]
  | p, .scalar .., e', h => by
    cases e' <;> simp only [SameRich] at h
    simp only [nIsEmpty, stringIsEmpty, h.2.1, h.2.2]
  | p, .dict _ ks, e', h => by
    cases e' <;> simp only [SameRich] at h
    simp only [nIsEmpty, (sameRich_count _ _ h.2).2.2]
  | p, .list _ ks, e', h => by
    cases e' <;> simp only [SameRich] at h
    simp only [nIsEmpty, isEmpty_of_length, (sameRich_count _ _ h.2).1]
  | p, .array _ ks, e', h => by
    cases e' <;> simp only [SameRich] at h
    simp only [nIsEmpty, isEmpty_of_length, (sameRich_count _ _ h.2).1]
  | p, .compound _ _ _ ks, e', h => by
    cases e' <;> simp only [SameRich] at h
    simp only [nIsEmpty, sameRich_allEmpty rules p 0 ks _ h.2.2.2]
  | p, .joined _ _ ks, e', h => by
    cases e' <;> simp only [SameRich] at h
    simp only [nIsEmpty, isEmpty_of_length, (sameRich_count _ _ h.2.2).1]
theorem sameRich_allEmpty (rules : Pos → RichField) (p : Pos) : ∀ (i : Nat) (ks ks' : List NElem), SameRichAll ks ks' →
    allEmpty rules p i ks = allEmpty rules p i ks'
  | i, [], ks', h => by cases ks' <;> simp_all [SameRichAll]
  | i, k :: ks, ks', h => by
    cases ks' with
    | nil => simp [SameRichAll] at h
    | cons k' ks' =>
      rw [SameRichAll] at h
      simp only [allEmpty, sameRich_isEmpty rules (p ++ [i]) k k' h.1, sameRich_allEmpty rules p (i + 1) ks ks' h.2]
end

theorem sameRich_env {e e' : NElem} (h : SameRich e e') {rules : Pos → RichField} (hr : RichContentRules rules) : richEnv e rules = richEnv e' rules := by
  have hc : richClass e rules = richClass e' rules := by
    funext p
    have h1 : ∀ r ∈ (rules p).validators ++ (rules p).descent, runRichRule e p r = runRichRule e' p r := by
      intro r hrm
      obtain ⟨a, b⟩ := hr p r hrm e e' h p
      funext st
      simp only [runRichRule, a, b]
    have hv : (rules p).validators.map (runRichRule e p) = (rules p).validators.map (runRichRule e' p) :=
      List.map_congr_left fun r hm => h1 r (by simp [hm])
    have hd : (rules p).descent.map (runRichRule e p) = (rules p).descent.map (runRichRule e' p) :=
      List.map_congr_left fun r hm => h1 r (by simp [hm])
    have hcont : isContainerN ((nElemAt e p).getD .absent) = isContainerN ((nElemAt e' p).getD .absent) :=
      sameRich_read (fun o => isContainerN (o.getD .absent)) (fun a b hab => (sameRich_present hab).2.2) h p
    have hem : nIsEmpty rules p ((nElemAt e p).getD .absent) = nIsEmpty rules p ((nElemAt e' p).getD .absent) :=
      sameRich_read (fun o => nIsEmpty rules p (o.getD .absent)) (fun a b hab => sameRich_isEmpty rules p a b hab) h p
    simp only [richClass, hcont, hem, hv]
    cases isContainerN ((nElemAt e' p).getD .absent) <;> simp [hv, hd]
  have hp : childPositions (shape e) = childPositions (shape e') := by
    funext p; simp only [childPositions, same_nodeChildren (sameRich_shape h)]
  simp only [richEnv, hc, hp]

theorem richFind_enough (e : NElem) (strict : Bool) (n : Node) (ops : List Op) :
    ∃ r, ∀ m, (elemCount (shape e) + 1) ^ ops.length ≤ m → evalLoop (richGraph e) strict m [(ops, n)] [] = some r := by
  refine evalLoop_ends (richGraph e) strict (W := elemCount (shape e)) (fun n => children_le_count (shape e) n) _ _ _ ?_
  simp [workLeft]

end Flatland
