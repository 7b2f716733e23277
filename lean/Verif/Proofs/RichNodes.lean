import Verif.Spec.RichNodes
import Verif.Proofs.Nodes
import Verif.Proofs.Scalars
/-! Lemmas about navigation in trees with Compounds and JoinedStrings (C92). -/
namespace Flatland
open Flatland.Spec

theorem runOps_cut {N} (g : Graph N) (strict : Bool) (ops : List Op) (el : N) :
    runOps (withoutFalseParents g) strict ops el = runOps g strict ops el := by
  induction ops generalizing el with
  | nil => rfl
  | cons op ops ih =>
    cases op with
    | up =>
      simp only [runOps, withoutFalseParents] at ih ⊢
      cases hp : g.parent el with
      | none => simp only [Option.filter]; exact ih el
      | some p =>
        cases ht : g.truthy p
        · simp only [Option.filter, ht]; exact ih el
        · simp only [Option.filter, ht, if_true]; exact ih p
    | name n =>
      simp only [runOps] at ih ⊢
      have : (withoutFalseParents g).index = g.index := rfl
      rw [this]
      split
      · exact ih _
      · rfl
    | top => exact ih _
    | here => exact ih _
    | slice => rfl

theorem evalLoop_cut {N} (g : Graph N) (strict : Bool) (n : Nat) (st : List (List Op × N)) (found : List N) :
    evalLoop (withoutFalseParents g) strict n st found = evalLoop g strict n st found := by
  induction n generalizing st found with
  | zero => cases st <;> rfl
  | succ n ih =>
    cases st with
    | nil => rfl
    | cons c st =>
      obtain ⟨ops, el⟩ := c
      simp only [evalLoop, runOps_cut, ih]

theorem cut_parentsTruthy {N} (g : Graph N) : ParentsTruthy (withoutFalseParents g) := by
  intro x p h
  simp only [withoutFalseParents] at h ⊢
  exact (Option.filter_eq_some_iff.1 h).2

theorem shapes_getElem? (ks : List NElem) (i : Nat) : (shapes ks)[i]? = ks[i]?.map shape := by
  induction ks generalizing i with
  | nil => simp [shapes]
  | cons k ks ih => cases i <;> simp [shapes, ih]

theorem shape_kids (e : NElem) : (shape e).kids = shapes e.kids := by
  cases e <;> simp [shape, Elem.kids, NElem.kids, shapes]

theorem shape_at (e : NElem) (p : Pos) : (elemAt (shape e) p).isSome → elemAt (shape e) p = (nElemAt e p).map shape := by
  induction p generalizing e with
  | nil =>
    intro h
    have : shape e ≠ .absent := by intro he; rw [he, elemAt_absent] at h; cases h
    rw [elemAt_nil _ this]; rfl
  | cons i p ih =>
    intro h
    have hne : shape e ≠ .absent := by intro he; rw [he, elemAt_absent] at h; cases h
    rw [elemAt_cons _ _ _ hne] at h ⊢
    rw [shape_kids, shapes_getElem?] at h ⊢
    simp only [nElemAt]
    cases hk : e.kids[i]? with
    | none => simp
    | some k =>
      rw [hk] at h
      exact ih k h

theorem shape_present (k : NElem) : (shape k = .absent ↔ k = .absent) := by cases k <;> simp [shape]

theorem shape_elemAt (e : NElem) (p : Pos) : elemAt (shape e) p = ((nElemAt e p).filter NElem.present).map shape := by
  induction p generalizing e with
  | nil => cases e <;> simp [nElemAt, shape, elemAt, NElem.present, Option.filter]
  | cons i p ih =>
    by_cases he : e = .absent
    · subst he; simp [shape, elemAt_absent, nElemAt, NElem.kids]
    · have hne : shape e ≠ .absent := fun h => he ((shape_present e).1 h)
      rw [elemAt_cons _ _ _ hne, shape_kids, shapes_getElem?]
      simp only [nElemAt]
      cases hk : e.kids[i]? with
      | none => simp
      | some k => exact ih k

theorem at_iff (e : NElem) (p : Pos) (x : Elem) : elemAt (shape e) p = some x ↔ ∃ k, At e p k ∧ shape k = x := by
  rw [shape_elemAt]
  simp only [Option.map_eq_some_iff, Option.filter_eq_some_iff, At]
  refine exists_congr fun k => and_congr_left fun _ => and_congr_right fun _ => ?_
  cases k <;> simp [NElem.present]

theorem shape_named (k : NElem) : (shape k).name = nameN k := by cases k <;> rfl

theorem leads_way {P arrays} {e : NElem} {pos : Pos} {names : List PStr} (h : LeadsTo P arrays e pos names) :
    Way P (shape e) pos ∧ wayNames (shape e) pos = names := by
  induction h with
  | here he => exact ⟨fun h => he ((shape_present _).1 h), rfl⟩
  | @field e ks i k n p names hf hk hn hp hu _ ih =>
    have hs : shape e = .dict (nameN e) (shapes ks) := by cases hf <;> simp [shape, nameN]
    rw [hs]
    refine ⟨⟨shape k, n, by rw [shapes_getElem?, hk]; rfl, by rw [shape_named, hn], hp, ?_, ih.1⟩, ?_⟩
    · intro j k' hj hpr hnm
      rw [shapes_getElem?] at hj
      obtain ⟨k0, hk0, rfl⟩ := Option.map_eq_some_iff.1 hj
      refine hu j k0 hk0 ?_ (by rw [← shape_named, hnm])
      rintro rfl
      simp [shape, Elem.present] at hpr
    · simp [wayNames, shapes_getElem?, hk, shape_named, hn, ih.2]
  | @member e ks i k p names hm hk _ ih =>
    have hs : shape e = .list (nameN e) (shapes ks) ∨ shape e = .array (nameN e) (shapes ks) := by cases hm <;> simp [shape, nameN]
    rcases hs with hs | hs <;> rw [hs] <;>
      exact ⟨⟨shape k, by rw [shapes_getElem?, hk]; rfl, ih.1⟩, by simp [wayNames, Elem.kids, shapes_getElem?, hk, ih.2]⟩

theorem leads_route {P} {e : NElem} {pos : Pos} {names : List PStr} (h : LeadsTo P false e pos names) :
    Route P (shape e) pos ∧ routeNames (shape e) pos = names := by
  induction h with
  | here he => exact ⟨fun h => he ((shape_present _).1 h), rfl⟩
  | @field e ks i k n p names hf hk hn hp hu _ ih =>
    have hs : shape e = .dict (nameN e) (shapes ks) := by cases hf <;> simp [shape, nameN]
    rw [hs]
    refine ⟨⟨shape k, n, by rw [shapes_getElem?, hk]; rfl, by rw [shape_named, hn], hp, ?_, ih.1⟩, ?_⟩
    · intro j k' hj hpr hnm
      rw [shapes_getElem?] at hj
      obtain ⟨k0, hk0, rfl⟩ := Option.map_eq_some_iff.1 hj
      refine hu j k0 hk0 ?_ (by rw [← shape_named, hnm])
      rintro rfl
      simp [shape, Elem.present] at hpr
    · simp [routeNames, Elem.kids, shapes_getElem?, hk, shape_named, hn, ih.2]
  | @member e ks i k p names hm hk _ ih =>
    have hs : shape e = .list (nameN e) (shapes ks) := by cases hm <;> simp_all [shape, nameN]
    rw [hs]
    exact ⟨⟨shape k, by rw [shapes_getElem?, hk]; rfl, ih.1⟩, by simp [routeNames, shapes_getElem?, hk, ih.2]⟩

theorem at_some {e : NElem} {p : Pos} {k : NElem} (h : At e p k) : (elemAt (shape e) p).isSome := by
  rw [(at_iff e p (shape k)).2 ⟨k, h, rfl⟩]; rfl

variable [Runtime]

theorem nTruthy_blank (k : NElem) (h : ∃ x ∈ k.kids, x ≠ .absent) : nTruthy k = false ↔ BlankWhole k := by
  obtain ⟨x, hx, hne⟩ := h
  have hp : k.kids.any NElem.present = true := List.any_eq_true.2 ⟨x, hx, by cases x <;> simp_all [NElem.present]⟩
  cases k with
  | absent => simp [NElem.kids] at hx
  | scalar => simp [NElem.kids] at hx
  | compound n u v ks => simp [nTruthy, BlankWhole, ← truthy_iff]; grind
  | joined n t ks => simp [nTruthy, BlankWhole, truthy]
  | _ => simp only [nTruthy, BlankWhole, hp]; simp

theorem nodeIndex_array {e : Elem} {pre : Pos} {nm : Option PStr} {ks : List Elem} {i : Nat} {k : Elem}
    (h : elemAt e pre = some (.array nm ks)) (hk : ks[i]? = some k) :
    nodeIndex e ⟨pre, false⟩ (some (decimal i)) = .ok ⟨pre ++ [i], false⟩ := by
  obtain ⟨hi, _⟩ := List.getElem?_eq_some_iff.1 hk
  have : pyInt (decimal i) = some (i : Int) := by rw [← padNat_zero]; exact pyInt_padNat 0 i
  simp [nodeIndex, h, this, pyIndex_nat hi]

theorem way_steps {P} (e : Elem) (g : Graph Node) (hg : g.index = nodeIndex e) : ∀ (ps pre : Pos) (k : Elem), elemAt e pre = some k → Way P k ps →
    branches g ((wayNames k ps).map fun n => .name (some n)) ⟨pre, false⟩ = [.ok ⟨pre ++ ps, false⟩]
  | [], pre, k, _, _ => by simp [wayNames, branches]
  | i :: ps, pre, k, hk, hr => by
    have absurdAbsent : ∀ c, Way P c ps → c ≠ .absent := by
      rintro c hr rfl
      cases ps with
      | nil => exact hr rfl
      | cons => cases hr
    cases k with
    | scalar => cases hr
    | absent => cases hr
    | dict nm ks =>
      obtain ⟨c, n, hc, hn, hpn, hu, hr⟩ := hr
      have hat : elemAt e (pre ++ [i]) = some c := by
        rw [elemAt_snoc e pre i hk]; simp [Elem.kids, hc, elemAt_self (absurdAbsent c hr)]
      have hi := nodeIndex_dict hk hc hn hu
      have ih := way_steps e g hg ps (pre ++ [i]) c hat hr
      simp only [List.append_assoc, List.cons_append, List.nil_append] at ih
      simp only [wayNames, hc, hn, Option.getD_some, hg, hi, List.map_cons, branches]
      exact ih
    | list nm ks =>
      obtain ⟨c, hc, hr⟩ := hr
      have hat : elemAt e (pre ++ [i]) = some c := by
        rw [elemAt_snoc e pre i hk]; simp [Elem.kids, hc, elemAt_self (absurdAbsent c hr)]
      have hi := nodeIndex_list hk hc
      have ih := way_steps e g hg ps (pre ++ [i]) c hat hr
      simp only [List.append_assoc, List.cons_append, List.nil_append] at ih
      simp only [wayNames, Elem.kids, hc, hg, hi, List.map_cons, branches]
      exact ih
    | array nm ks =>
      obtain ⟨c, hc, hr⟩ := hr
      have hat : elemAt e (pre ++ [i]) = some c := by
        rw [elemAt_snoc e pre i hk]; simp [Elem.kids, hc, elemAt_self (absurdAbsent c hr)]
      have hi := nodeIndex_array hk hc
      have ih := way_steps e g hg ps (pre ++ [i]) c hat hr
      simp only [List.append_assoc, List.cons_append, List.nil_append] at ih
      simp only [wayNames, Elem.kids, hc, hg, hi, List.map_cons, branches]
      exact ih

omit [Runtime] in
theorem wayNames_step : ∀ (ps : Pos) (e : Elem), Way StepName e ps → ∀ x ∈ wayNames e ps, StepName x
  | [], e, _ => by simp [wayNames]
  | i :: ps, e, hr => by
    cases e with
    | scalar => cases hr
    | absent => cases hr
    | dict nm ks =>
      obtain ⟨c, n, hc, hn, hpn, hu, hr⟩ := hr
      have ih := wayNames_step ps c hr
      intro x hx
      simp only [wayNames, hc, hn, Option.getD_some, List.mem_cons] at hx
      rcases hx with rfl | hx
      · exact hpn
      · exact ih x hx
    | list nm ks | array nm ks =>
      obtain ⟨c, hc, hr⟩ := hr
      have ih := wayNames_step ps c hr
      intro x hx
      simp only [wayNames, Elem.kids, hc, List.mem_cons] at hx
      rcases hx with rfl | hx
      · exact decimal_step i
      · exact ih x hx

end Flatland
