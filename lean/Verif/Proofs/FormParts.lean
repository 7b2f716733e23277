import Verif.Model.FormParts
import Verif.Props.FormValidation
import Verif.Proofs.RichValidation
/-! Lemmas for validation of a part of a form. -/
namespace Flatland
open Flatland.Spec

theorem childPositions_finite_at (e : Elem) (p : Pos) (hp : (elemAt e p).isSome) : Finite (childPositions e) p := by
  have he : e ≠ .absent := by rintro rfl; simp [elemAt_absent] at hp
  refine ⟨(List.range e.size).flatMap fun d => posLev d e, ?_, ?_⟩
  · exact List.mem_flatMap.2 ⟨p.length, List.mem_range.2 (pos_depth p e hp), (mem_posLev _ e he p).2 ⟨rfl, hp⟩⟩
  · intro p _ x hx
    obtain ⟨i, _, h⟩ := mem_childPositions.1 hx
    exact List.mem_flatMap.2 ⟨x.length, List.mem_range.2 (pos_depth x e h), (mem_posLev _ e he x).2 ⟨rfl, h⟩⟩

theorem within_part {e : Elem} {p : Pos} (hp : (elemAt e p).isSome) (q : Pos) :
    Within (childPositions e) p q ↔ p <+: q ∧ (elemAt e q).isSome := by
  constructor
  · intro h
    induction h with
    | root => exact ⟨List.prefix_refl p, hp⟩
    | child _ hx ih =>
      obtain ⟨i, rfl, hs⟩ := mem_childPositions.1 hx
      exact ⟨ih.1.trans (List.prefix_append _ _), hs⟩
  · rintro ⟨⟨t, rfl⟩, h⟩
    have key : ∀ (n : Nat) (t : Pos), t.length = n → (elemAt e (p ++ t)).isSome → Within (childPositions e) p (p ++ t) := by
      intro n
      induction n with
      | zero => intro t ht _; rw [List.length_eq_zero_iff.1 ht, List.append_nil]; exact .root
      | succ n ih =>
        intro t ht hs
        rcases List.eq_nil_or_concat t with rfl | ⟨u, i, rfl⟩
        · simp at ht
        · rw [List.concat_eq_append] at *
          rw [← List.append_assoc] at hs ⊢
          exact .child (ih u (by simpa using ht) (elemAt_prefix hs)) (mem_childPositions.2 ⟨i, rfl, hs⟩)
    exact key t.length t rfl h

/-! ### the order of all_children -/

theorem levLt_snoc {z i : Pos} (j k : Nat) (h : LevLt z i) : LevLt (z ++ [j]) (i ++ [k]) := by
  rcases h with h | ⟨h1, h2⟩
  · left; simpa using h
  · right
    refine ⟨by simpa using h1, ?_⟩
    induction z generalizing i with
    | nil => cases i with
      | nil => exact absurd h2 (List.lt_irrefl [])
      | cons _ _ => simp at h1
    | cons a z ih => cases i with
      | nil => simp at h1
      | cons b i =>
        rw [List.cons_lt_cons_iff] at h2
        simp only [List.cons_append, List.cons_lt_cons_iff]
        rcases h2 with h2 | ⟨h2, h3⟩
        · exact .inl h2
        · exact .inr ⟨h2, ih (by simpa using h1) h3⟩

theorem childPositions_levLt (e : Elem) (p : Pos) : (childPositions e p).Pairwise LevLt := by
  have h : (childPositions e p).Sublist ((List.range ((elemAt e p).getD .absent).kids.length).map fun i => p ++ [i]) := by
    unfold childPositions nodeChildren
    simp only [Bool.false_eq_true, if_false]
    cases elemAt e p with
    | none => simp
    | some k =>
      simp only [Option.getD_some]
      generalize List.range k.kids.length = l
      induction l with
      | nil => simp
      | cons i l ih =>
        rw [List.filterMap_cons, List.map_cons]
        split
        · exact .cons _ ih
        · rename_i nd hnd
          have : nd.pos = p ++ [i] := by
            split at hnd
            · split at hnd
              · cases hnd; rfl
              · cases hnd
            · cases hnd
          rw [List.map_cons, this]
          exact .cons_cons _ ih
  refine List.Pairwise.sublist h ?_
  clear h
  rw [List.pairwise_map]
  refine List.pairwise_lt_range.imp fun {a b} hab => .inr ⟨by simp, ?_⟩
  induction p with
  | nil => exact List.cons_lt_cons_iff.2 (.inl hab)
  | cons x p ih => exact List.cons_lt_cons_iff.2 (.inr ⟨rfl, ih⟩)

theorem allChildrenLoop_sorted (e : Elem) (root : Pos) (n : Nat) (queue out l : List Pos) (hs : (out.reverse ++ queue).Pairwise LevLt)
    (hc : ∀ y ∈ out.reverse ++ queue, ∃ z, (z = root ∨ z ∈ out) ∧ y ∈ childPositions e z) (hd : ∀ y ∈ out.reverse ++ queue, root.length < y.length)
    (hl : allChildrenLoop (childPositions e) root n queue out = some l) : l.Pairwise LevLt := by
  induction n generalizing queue out with
  | zero => simp [allChildrenLoop] at hl
  | succ n ih =>
    cases queue with
    | nil =>
      simp only [allChildrenLoop, Option.some.injEq] at hl
      subst hl
      simpa using hs
    | cons i queue =>
      rw [allChildrenLoop] at hl
      have hsub : (out.reverse ++ queue).Sublist (out.reverse ++ i :: queue) := (List.Sublist.refl _).append (List.sublist_cons_self _ _)
      split at hl
      · exact ih _ _ (hs.sublist hsub) (fun y hy => hc y (hsub.subset hy)) (fun y hy => hd y (hsub.subset hy)) hl
      · have heq : (i :: out).reverse ++ (queue ++ childPositions e i) = (out.reverse ++ i :: queue) ++ childPositions e i := by simp
        refine ih _ _ ?_ ?_ ?_ hl
        · rw [heq, List.pairwise_append]
          refine ⟨hs, childPositions_levLt e i, fun y hy c hcc => ?_⟩
          obtain ⟨z, hz, hyz⟩ := hc y hy
          obtain ⟨j, rfl, _⟩ := mem_childPositions.1 hyz
          obtain ⟨k, rfl, _⟩ := mem_childPositions.1 hcc
          refine levLt_snoc j k ?_
          rcases hz with rfl | hz
          · exact .inl (hd i (by simp))
          · exact (List.pairwise_append.1 hs).2.2 z (by simpa using hz) i (by simp)
        · rw [heq]
          intro y hy
          rcases List.mem_append.1 hy with hy | hy
          · obtain ⟨z, hz, hyz⟩ := hc y hy
            exact ⟨z, hz.imp_right (List.mem_cons_of_mem _), hyz⟩
          · exact ⟨i, .inr List.mem_cons_self, hy⟩
        · rw [heq]
          intro y hy
          rcases List.mem_append.1 hy with hy | hy
          · exact hd y hy
          · obtain ⟨k, rfl, _⟩ := mem_childPositions.1 hy
            have := hd i (by simp)
            simp; omega

theorem allChildrenIds_sorted (e : Elem) (root : Pos) (n : Nat) (l : List Pos) (hl : allChildrenIds (childPositions e) n root = some l) :
    l.Pairwise LevLt := by
  refine allChildrenLoop_sorted e root n (childPositions e root) [] l (by simpa using childPositions_levLt e root) (fun y hy => ⟨root, .inl rfl, by simpa using hy⟩) ?_ hl
  intro y hy
  obtain ⟨i, rfl, _⟩ := mem_childPositions.1 (by simpa using hy)
  simp

variable [Runtime]

theorem formEnv_local_part (e : Elem) (rules : Pos → FieldRules) (root : Pos)
    (h : ∀ p k, root <+: p → elemAt e p = some k → Answers e p (rules p).validators ∧ (containerElem k = true → Answers e p (rules p).descent)) :
    LocalEnv (formEnv e rules) (fun p => root <+: p ∧ (elemAt e p).isSome) (downNotes e rules) (upNotes e rules) (downVerdict e rules)
      (upVerdict e rules) := by
  -- outside of the part there might as well be no validators
  let rules' : Pos → FieldRules := fun p => if root <+: p then rules p else { rules p with validators := [], descent := [] }
  have hl := formEnv_local e rules' (by
    intro p k hk
    by_cases hp : root <+: p
    · simpa only [rules', if_pos hp] using h p k hp hk
    · simp only [rules', if_neg hp]
      exact ⟨fun r hr => absurd hr (by simp), fun _ r hr => absurd hr (by simp)⟩)
  have hr : ∀ p, root <+: p → rules' p = rules p := fun p hp => by simp only [rules', if_pos hp]
  have hcls : ∀ p, root <+: p → formClass e rules' p = formClass e rules p := fun p hp => by simp only [formClass, hr p hp]
  constructor
  · exact formEnv_flags e rules
  · rintro _ p ⟨hp, _⟩ x hx
    obtain ⟨i, rfl, hs⟩ := mem_childPositions.1 hx
    exact ⟨hp.trans (List.prefix_append _ _), hs⟩
  · rintro p ⟨hp, hs⟩ st
    have := hl.down p hs st
    simpa only [formEnv, VEnv.ofClasses, downNotes, downVerdict, hr p hp, hcls p hp] using this
  · rintro p ⟨hp, hs⟩ st
    have := hl.up p hs st
    simpa only [formEnv, VEnv.ofClasses, upNotes, upVerdict, hr p hp, hcls p hp] using this
  · rintro p ⟨hp, hs⟩
    have := hl.downObj p hs
    simpa only [downVerdict, hr p hp] using this
  · rintro p ⟨hp, hs⟩
    have := hl.upObj p hs
    simpa only [upVerdict, hr p hp] using this

end Flatland
