import Verif.Proofs.TreeRules
import Verif.Proofs.Nodes
import Verif.Proofs.Validate
import Verif.Props.Validators
import Verif.Props.Paths
/-! More lemmas for C79. -/
namespace Flatland
open Flatland.Spec

theorem callable_call {E V : Type} (f : E → Except PyErr V) : (TransformAttr.callable f).call = f := rfl

theorem allEqual_congr {E V : Type} (fn fn' : E → Except PyErr V) (eq : V → V → Bool) (s : V) :
    ∀ es : List E, (∀ x ∈ es, fn x = fn' x) → allEqual fn eq s es = allEqual fn' eq s es
  | [], _ => rfl
  | x :: es, h => by
    simp only [allEqual, h x (by simp), allEqual_congr fn fn' eq s es fun y hy => h y (by simp [hy])]

theorem mapEqual_congr {P E V : Type} (find : P → Except PyErr E) (fn fn' : E → Except PyErr V) (eq : V → V → Bool) {paths : List P} (el : P → E)
    (hf : ∀ q ∈ paths, find q = .ok (el q)) (h : ∀ q ∈ paths, fn (el q) = fn' (el q)) : mapEqual find fn eq paths = mapEqual find fn' eq paths := by
  simp only [mapEqual, mapExcept_ok find el paths hf]
  cases paths with
  | nil => rfl
  | cons q qs =>
    simp only [List.map_cons, h q (by simp)]
    cases fn' (el q) with
    | error er => rfl
    | ok s =>
      simp only
      rw [allEqual_congr fn fn' eq s (qs.map el) fun x hx => by
        obtain ⟨y, hy, rfl⟩ := List.mem_map.1 hx
        exact h y (by simp [hy])]

theorem equalLabels_ok (ls : List (Option PStr)) (hne : ls ≠ []) (h : ∀ l ∈ ls, l ≠ .none) : ∃ r, equalLabels ls = .ok r := by
  cases ls with
  | nil => contradiction
  | cons l ls =>
    simp only [equalLabels]
    rw [if_neg]
    · exact ⟨_, rfl⟩
    · rw [List.contains_iff_mem]
      exact fun hm => h .none (List.dropLast_subset _ hm) rfl

theorem elemAt_child {e k c : Elem} {p : Pos} {i : Nat} (hk : elemAt e p = some k) (hi : k.kids[i]? = some c) (hc : c ≠ .absent) :
    elemAt e (p ++ [i]) = some c := by
  rw [elemAt_snoc e p i hk, hi]
  simp [elemAt_nil c hc]

theorem elemPresent_iff {c : Elem} : c.present = true ↔ c ≠ .absent := by cases c <;> simp [Elem.present]

theorem siblings_of (e : Elem) (p : Pos) (k : Elem) (hk : elemAt e p = some k) (i : Nat) (c : Elem) (hi : k.kids[i]? = some c) (hc : c ≠ .absent) :
    siblingNodes e (p ++ [i]) = some (nodeChildren e ⟨p, false⟩) := by
  have hat := elemAt_child hk hi hc
  have hv : (⟨p ++ [i], false⟩ : Node).valid e = true := by simp [Node.valid, hat]
  cases k with
  | list n ks =>
    have hv2 : (⟨p ++ [i], true⟩ : Node).valid e = true := by simp [Node.valid, hat, hk]
    have h1 : parentNode e ⟨p ++ [i], false⟩ = some ⟨p ++ [i], true⟩ := by simp [parentNode, hv, hk]
    have h2 : parentNode e ⟨p ++ [i], true⟩ = some ⟨p, false⟩ := by simp [parentNode, hv2]
    simp only [siblingNodes, h1, h2, if_true, Option.map_some]
  | scalar => simp [Elem.kids] at hi
  | absent => simp [Elem.kids] at hi
  | dict =>
    have h1 : parentNode e ⟨p ++ [i], false⟩ = some ⟨p, false⟩ := by simp [parentNode, hv, hk]
    simp only [siblingNodes, h1, Bool.false_eq_true, if_false]
  | array =>
    have h1 : parentNode e ⟨p ++ [i], false⟩ = some ⟨p, false⟩ := by simp [parentNode, hv, hk]
    simp only [siblingNodes, h1, Bool.false_eq_true, if_false]

theorem siblings_split (e : Elem) (p : Pos) (k : Elem) (hk : elemAt e p = some k) (i : Nat) (c : Elem) (hi : k.kids[i]? = some c) (hc : c ≠ .absent) :
    ∃ pre post, siblingNodes e (p ++ [i]) = some (pre ++ ⟨p ++ [i], false⟩ :: post) ∧ (⟨p ++ [i], false⟩ : Node) ∉ pre ∧
      ∀ b, b ∈ pre ↔ ∃ (j : Nat) (d : Elem), j < i ∧ k.kids[j]? = some d ∧ d ≠ .absent ∧ b = ⟨p ++ [j], false⟩ := by
  let f : Nat → Option Node := fun i => match k.kids[i]? with
    | some c => if c.present then some ⟨p ++ [i], false⟩ else .none
    | .none => .none
  have hlt : i < k.kids.length := by
    have := List.getElem?_eq_some_iff.1 hi
    exact this.1
  have hch : nodeChildren e ⟨p, false⟩ = (List.range k.kids.length).filterMap f := by
    simp only [nodeChildren, hk]
    rfl
  have hrange : List.range k.kids.length = List.range i ++ (i :: (List.range' (i + 1) (k.kids.length - (i + 1)))) := by
    rw [List.range_eq_range', List.range_eq_range']
    have h1 : k.kids.length = i + (1 + (k.kids.length - (i + 1))) := by omega
    rw [h1, List.range'_append_1.symm]
    congr 1
    rw [Nat.add_comm 1, List.range'_succ]
    simp
    omega
  have hfi : f i = some ⟨p ++ [i], false⟩ := by simp only [f, hi, elemPresent_iff.2 hc, if_true]
  refine ⟨(List.range i).filterMap f, (List.range' (i + 1) (k.kids.length - (i + 1))).filterMap f, ?_, ?_, ?_⟩
  · rw [siblings_of e p k hk i c hi hc, hch, hrange, List.filterMap_append, List.filterMap_cons, hfi]
  · rw [List.mem_filterMap]
    rintro ⟨j, hj, hfj⟩
    have hji : j < i := List.mem_range.1 hj
    simp only [f] at hfj
    split at hfj
    · split at hfj
      · simp only [Option.some.injEq, Node.mk.injEq, and_true] at hfj
        have := List.append_cancel_left hfj
        simp at this
        omega
      · cases hfj
    · cases hfj
  · intro b
    rw [List.mem_filterMap]
    constructor
    · rintro ⟨j, hj, hfj⟩
      simp only [f] at hfj
      split at hfj
      · rename_i d hd
        split at hfj
        · rename_i hp
          exact ⟨j, d, List.mem_range.1 hj, hd, elemPresent_iff.1 hp, (Option.some.inj hfj).symm⟩
        · cases hfj
      · cases hfj
    · rintro ⟨j, d, hj, hd, hp, rfl⟩
      refine ⟨j, List.mem_range.2 hj, ?_⟩
      simp only [f, hd, elemPresent_iff.2 hp, if_true]

theorem validateForm_mono [Runtime] {e : Elem} {rules : Pos → FieldRules} {n m : Nat} {st : VState Pos (Pos → List PStr)}
    {r : VRun Pos (Pos → List PStr)} (hr : validateForm e rules n st = some r) (h : n ≤ m) : validateForm e rules m st = some r := by
  simp only [validateForm, validateTree] at hr ⊢
  cases hd : descend (formEnv e rules) n st [[]] [] true with
  | none => rw [hd] at hr; cases hr
  | some x => rw [descend_mono h hd]; rw [hd] at hr; exact hr

section
variable [Runtime]

/-- the strict evaluation of a path one of whose branches fails -/
theorem findNodes_fails (e : Elem) (n : Node) (path : PStr) (ops : List Op) (ht : tokenize path = .ok ops)
    (h : ∃ er, .error er ∈ branches (treeGraph e) ops n) :
    ∃ er, .error er ∈ branches (treeGraph e) ops n ∧ findNodes e true n path = .error (reported er) := by
  obtain ⟨er, he⟩ := h
  obtain ⟨er', h1, _, m, hm⟩ := evalLoop_raises (treeGraph e) (tree_parentsTruthy e) true ops.length ops (Nat.le_refl _) [n] []
    ⟨er, by simpa using he, .inl rfl⟩
  refine ⟨er', by simpa using h1, ?_⟩
  obtain ⟨r, hr⟩ := find_enough e true n ops
  have h2 := hr (max m ((elemCount e + 1) ^ ops.length)) (by omega)
  have h3 := hm (max m ((elemCount e + 1) ^ ops.length)) (by omega)
  simp only [List.map_cons, List.map_nil] at h3
  rw [h3] at h2
  simp only [findNodes, ht, hr _ (Nat.le_refl _), Option.getD_some]
  exact (Option.some.inj h2).symm

omit [Runtime] in
theorem mapExcept_first_error {A B : Type} (f : A → Except PyErr B) (g : A → B) (pre post : List A) (a : A) (er : PyErr)
    (hpre : ∀ x ∈ pre, f x = .ok (g x)) (ha : f a = .error er) : mapExcept f (pre ++ a :: post) = .error er := by
  induction pre with
  | nil => simp [mapExcept, ha]
  | cons x pre ih =>
    simp only [List.cons_append, mapExcept, hpre x (by simp), ih fun y hy => hpre y (by simp [hy])]

/-- elements that are all found, without the message: passes, or notes `unequal` -/
theorem fieldsEqual_found {V : Type} (attr : Elem → V) (eq : V → V → Bool) (paths : List PStr) (hne : paths ≠ []) (label : Elem → Node → Option PStr)
    (e : Elem) (p : Pos) (at' : PStr → Node) (hfind : ∀ q ∈ paths, findOne e ⟨p, false⟩ q = .ok (some (at' q)))
    (hl : ∀ q ∈ paths, label e (at' q) ≠ .none) :
    fieldsEqual attr eq paths label e p =
      mapEqual (findOne e ⟨p, false⟩) (fun o => .ok (attr ((elemAt e (o.getD ⟨[], false⟩).pos).getD .absent))) eq paths := by
  have hmap : mapEqual (findOne e ⟨p, false⟩) (attrOfFound e attr) eq paths =
      mapEqual (findOne e ⟨p, false⟩) (fun o => .ok (attr ((elemAt e (o.getD ⟨[], false⟩).pos).getD .absent))) eq paths := by
    refine mapEqual_congr _ _ _ _ (fun q => some (at' q)) hfind fun q hq => ?_
    simp [attrOfFound]
  have hlabels : ∃ r, equalLabels (paths.map fun q => labelOfFound label e (some (at' q))) = .ok r := by
    refine equalLabels_ok _ (by simpa using hne) ?_
    intro x hx
    obtain ⟨q, hq, rfl⟩ := List.mem_map.1 hx
    exact hl q hq
  obtain ⟨r, hr⟩ := hlabels
  have hd : ((paths.map fun q => some (at' q)).dropLast.contains .none) = false := by
    rw [Bool.eq_false_iff]
    intro hc
    have := List.dropLast_subset _ (List.contains_iff_mem.1 hc)
    simp at this
  have hg : ¬ (paths.map fun q => some (at' q)).getLast? = some .none := by
    intro hc
    have := List.mem_of_getLast? hc
    simp at this
  simp only [fieldsEqual, mapExcept_ok _ _ _ hfind, hmap, List.map_map, Function.comp_def, hr, hd, if_neg hg, Bool.false_eq_true, if_false]
  cases mapEqual (findOne e ⟨p, false⟩) (fun o => .ok (attr ((elemAt e (o.getD ⟨[], false⟩).pos).getD .absent))) eq paths with
  | error er => rfl
  | ok o => cases o <;> rfl

omit [Runtime] in
theorem allEqual_none {V : Type} (e : Elem) (attr : Elem → V) (eq : V → V → Bool) (s : V) : ∀ (os : List (Option Node)), .none ∈ os →
    allEqual (attrOfFound e attr) eq s os = .error .attribute ∨ allEqual (attrOfFound e attr) eq s os = .ok false
  | [], h => by simp at h
  | .none :: os, _ => by simp [allEqual, attrOfFound]
  | some n :: os, h => by
    simp only [allEqual, attrOfFound]
    split
    · exact allEqual_none e attr eq s os (by simpa using h)
    · exact .inr rfl

/-- an element that is not found, among others that are -/
theorem fieldsEqual_none {V : Type} (attr : Elem → V) (eq : V → V → Bool) (paths : List PStr) (label : Elem → Node → Option PStr)
    (e : Elem) (p : Pos) (at' : PStr → Option Node) (hfind : ∀ q ∈ paths, findOne e ⟨p, false⟩ q = .ok (at' q))
    (hl : ∀ q ∈ paths, ∀ n, at' q = some n → label e n ≠ .none) (hnone : ∃ q ∈ paths, at' q = .none) :
    fieldsEqual attr eq paths label e p = .error .attribute := by
  obtain ⟨q, hq, hqn⟩ := hnone
  have hmem : .none ∈ paths.map at' := List.mem_map.2 ⟨q, hq, hqn⟩
  have hm : mapEqual (findOne e ⟨p, false⟩) (attrOfFound e attr) eq paths = .error .attribute ∨
      mapEqual (findOne e ⟨p, false⟩) (attrOfFound e attr) eq paths = .ok (some "unequal".toList) := by
    simp only [mapEqual, mapExcept_ok _ _ _ hfind]
    cases hx : paths.map at' with
    | nil => rw [hx] at hmem; simp at hmem
    | cons o os =>
      rw [hx] at hmem
      cases o with
      | none => simp [attrOfFound]
      | some n =>
        simp only [attrOfFound]
        rcases allEqual_none e attr eq (attr ((elemAt e n.pos).getD .absent)) os (by simpa using hmem) with h | h <;> rw [h] <;> simp [failUnless]
  simp only [fieldsEqual, mapExcept_ok _ _ _ hfind]
  rcases hm with hm | hm <;> rw [hm]
  simp only
  by_cases hd : (paths.map at').dropLast.contains .none = true
  · rw [if_pos hd]
  · rw [if_neg hd]
    have hne : paths.map at' ≠ [] := by intro hh; rw [hh] at hmem; simp at hmem
    have hlast : (paths.map at').getLast? = some .none := by
      rw [List.getLast?_eq_some_getLast hne]
      rw [← List.dropLast_concat_getLast hne, List.mem_append] at hmem
      rcases hmem with hmem | hmem
      · exact absurd (List.contains_iff_mem.2 hmem) hd
      · simp only [List.mem_singleton] at hmem
        rw [← hmem]
    rw [if_pos hlast]
    have hlab : ∃ r, equalLabels ((paths.map at').map (labelOfFound label e)) = .ok r := by
      cases hx : paths.map at' with
      | nil => exact absurd hx hne
      | cons o os =>
        simp only [List.map_cons, equalLabels]
        rw [if_neg]
        · exact ⟨_, rfl⟩
        · rw [List.contains_iff_mem, ← List.map_cons, ← List.map_dropLast, List.mem_map]
          rintro ⟨o', ho', hlo⟩
          cases o' with
          | none => rw [hx] at hd; exact hd (List.contains_iff_mem.2 ho')
          | some n =>
            have : some n ∈ paths.map at' := by rw [hx]; exact List.dropLast_subset _ ho'
            obtain ⟨q', hq', hqn'⟩ := List.mem_map.1 this
            exact hl q' hq' n hqn' hlo
    obtain ⟨r, hr⟩ := hlab
    rw [hr]

end
end Flatland
