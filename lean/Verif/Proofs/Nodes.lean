import Verif.Spec.Nodes
import Verif.Proofs.Slices
import Verif.Proofs.TreeProps
/-! Lemmas about navigation between elements. -/
namespace Flatland
open Flatland.Spec

theorem elemAt_append (e : Elem) (p q : Pos) : elemAt e (p ++ q) = (elemAt e p).bind fun k => elemAt k q := by
  induction p generalizing e with
  | nil =>
    by_cases he : e = .absent
    · subst he; simp [elemAt_absent]
    · simp [elemAt_nil e he]
  | cons i p ih =>
    by_cases he : e = .absent
    · subst he; simp [elemAt_absent]
    · rw [List.cons_append, elemAt_cons e i _ he, elemAt_cons e i _ he]
      cases e.kids[i]? <;> simp [ih]

theorem elemAt_snoc (e : Elem) (q : Pos) (i : Nat) {k : Elem} (h : elemAt e q = some k) :
    elemAt e (q ++ [i]) = k.kids[i]?.bind fun c => elemAt c [] := by
  rw [elemAt_append, h]
  have hk : k ≠ .absent := by
    rintro rfl
    clear i
    induction q generalizing e with
    | nil => cases e <;> simp [elemAt] at h
    | cons j q ih =>
      by_cases he : e = .absent
      · subst he; simp [elemAt_absent] at h
      · rw [elemAt_cons e j _ he] at h
        cases hk : e.kids[j]? with
        | none => rw [hk] at h; simp at h
        | some c => rw [hk] at h; exact ih c h
  simp only [Option.bind_some]
  rw [elemAt_cons k i _ hk]
  cases k.kids[i]? <;> rfl

theorem elemAt_prefix {e : Elem} {p q : Pos} (h : (elemAt e (p ++ q)).isSome) : (elemAt e p).isSome := by
  rw [elemAt_append] at h
  cases hp : elemAt e p with
  | none => rw [hp] at h; simp at h
  | some k => rfl

theorem elemAt_some_ne {e k : Elem} {p : Pos} (h : elemAt e p = some k) : k ≠ .absent := by
  rintro rfl
  induction p generalizing e with
  | nil => cases e <;> simp [elemAt] at h
  | cons j q ih =>
    by_cases he : e = .absent
    · subst he; simp [elemAt_absent] at h
    · rw [elemAt_cons e j _ he] at h
      cases hk : e.kids[j]? with
      | none => rw [hk] at h; simp at h
      | some c => rw [hk] at h; exact ih h

theorem elemAt_self {c : Elem} (h : c ≠ .absent) : elemAt c [] = some c := elemAt_nil c h

/-- is there a List at the position? -/
def isListAt (e : Elem) (q : Pos) : Bool :=
  match elemAt e q with
  | some (.list ..) => true
  | _ => false

theorem valid_elem {e : Elem} {p : Pos} (h : (elemAt e p).isSome) : Node.valid e ⟨p, false⟩ = true := by
  simp [Node.valid, h]

theorem parentNode_snoc {e : Elem} {q : Pos} {i : Nat} (h : (elemAt e (q ++ [i])).isSome) :
    parentNode e ⟨q ++ [i], false⟩ = some (if isListAt e q then ⟨q ++ [i], true⟩ else ⟨q, false⟩) := by
  have hv := valid_elem h
  simp only [parentNode, hv, Bool.true_eq_false, List.append_eq_nil_iff, List.cons_ne_nil, and_false, or_self, if_false,
    Bool.false_eq_true, List.dropLast_concat, isListAt]
  split <;> simp_all

theorem parentNode_slot {e : Elem} {q : Pos} {i : Nat} (h : (elemAt e (q ++ [i])).isSome) (hl : isListAt e q = true) :
    parentNode e ⟨q ++ [i], true⟩ = some ⟨q, false⟩ := by
  have hv : Node.valid e ⟨q ++ [i], true⟩ = true := by
    simp only [Node.valid, h, List.dropLast_concat, Bool.true_and]
    simp only [isListAt] at hl
    split at hl
    · rename_i heq; simp [heq]
    · cases hl
  simp [parentNode, hv]

theorem parentNode_nil (e : Elem) (s : Bool) : parentNode e ⟨[], s⟩ = none := by simp [parentNode]

/-- the nodes from the root down to a position, slots included -/
def trail (e : Elem) : Pos → Pos → List Node
  | pre, [] => [⟨pre, false⟩]
  | pre, i :: ps => ⟨pre, false⟩ :: (if isListAt e pre then [⟨pre ++ [i], true⟩] else []) ++ trail e (pre ++ [i]) ps

theorem trail_snoc (e : Elem) (pre q : Pos) (i : Nat) :
    trail e pre (q ++ [i]) = trail e pre q ++ (if isListAt e (pre ++ q) then [⟨pre ++ q ++ [i], true⟩] else []) ++ [⟨pre ++ q ++ [i], false⟩] := by
  induction q generalizing pre with
  | nil => simp [trail]
  | cons j q ih => simp [trail, ih]

theorem parentsLoop_trail (e : Elem) : ∀ (n : Nat) (p : Pos) (f : Nat), p.length = n → 2 * n ≤ f → (elemAt e p).isSome →
    (parentsLoop e f ⟨p, false⟩).reverse ++ [⟨p, false⟩] = trail e [] p := by
  intro n
  induction n with
  | zero =>
    intro p f hp _ _
    have : p = [] := List.length_eq_zero_iff.1 hp
    subst this
    cases f <;> simp [parentsLoop, parentNode_nil, trail]
  | succ n ih =>
    intro p f hp hf hs
    obtain ⟨q, i, rfl⟩ : ∃ q i, p = q ++ [i] := by
      have : p ≠ [] := by rintro rfl; simp at hp
      exact ⟨p.dropLast, p.getLast this, (List.dropLast_concat_getLast this).symm⟩
    have hq : q.length = n := by simp at hp; exact hp
    obtain ⟨f, rfl⟩ : ∃ g, f = g + 2 := ⟨f - 2, by omega⟩
    rw [trail_snoc]
    simp only [parentsLoop, parentNode_snoc hs, List.nil_append]
    by_cases hl : isListAt e q = true
    · simp only [hl, if_true, parentNode_slot hs hl]
      have := ih q f hq (by omega) (elemAt_prefix hs)
      simp only [List.reverse_cons]
      rw [← this]
    · simp only [hl, Bool.false_eq_true, if_false]
      have := ih q (f + 1) hq (by omega) (elemAt_prefix hs)
      rw [← this]
      simp [parentsLoop]

theorem parents_trail (e : Elem) (p : Pos) (h : (elemAt e p).isSome) :
    (parents e ⟨p, false⟩).reverse ++ [⟨p, false⟩] = trail e [] p :=
  parentsLoop_trail e p.length p _ rfl (Nat.le_refl _) h

theorem trail_head (e : Elem) (pre q : Pos) : (trail e pre q).head? = some ⟨pre, false⟩ := by cases q <;> simp [trail]

theorem rootNode_elem (e : Elem) (p : Pos) (h : (elemAt e p).isSome) : rootNode e ⟨p, false⟩ = ⟨[], false⟩ := by
  have ht := parents_trail e p h
  have hh := trail_head e [] p
  rw [← ht] at hh
  unfold rootNode
  cases hr : (parents e ⟨p, false⟩).reverse with
  | nil =>
    rw [hr] at hh
    simp at hr
    simp [hr]
    simpa using hh
  | cons x xs =>
    rw [hr] at hh
    simp at hh
    have : parents e ⟨p, false⟩ = xs.reverse ++ [x] := by
      have := congrArg List.reverse hr
      simpa using this
    rw [this]
    simp [hh]

theorem route_some {P} : ∀ (p : Pos) (e : Elem), Route P e p → (elemAt e p).isSome
  | [], e, h => by rw [elemAt_nil e h]; rfl
  | i :: ps, e, h => by
    cases e with
    | scalar => cases h
    | array => cases h
    | absent => cases h
    | dict nm ks =>
      obtain ⟨k, n, hk, _, _, _, hr⟩ := h
      rw [elemAt_cons _ i ps (by simp)]
      simp only [Elem.kids, hk]
      exact route_some ps k hr
    | list nm ks =>
      obtain ⟨k, hk, hr⟩ := h
      rw [elemAt_cons _ i ps (by simp)]
      simp only [Elem.kids, hk]
      exact route_some ps k hr

theorem fqParts_trail {P} (hP : ∀ n, P n → n ≠ []) (e : Elem) : ∀ (ps pre : Pos) (k : Elem), elemAt e pre = some k → Route P k ps →
    fqParts e (trail e pre ps).tail none = (routeNames k ps).map some
  | [], pre, k, _, _ => by simp [trail, fqParts, routeNames]
  | i :: ps, pre, k, hk, hr => by
    cases k with
    | scalar => cases hr
    | array => cases hr
    | absent => cases hr
    | dict nm ks =>
      obtain ⟨c, n, hc, hn, hpn, _, hr⟩ := hr
      have hcne : c ≠ .absent := by rintro rfl; cases hn
      have hat : elemAt e (pre ++ [i]) = some c := by
        rw [elemAt_snoc e pre i hk]; simp [Elem.kids, hc, elemAt_self hcne]
      have hl : isListAt e pre = false := by simp [isListAt, hk]
      have ih := fqParts_trail hP e ps (pre ++ [i]) c hat hr
      simp only [trail, hl, Bool.false_eq_true, if_false, List.tail_cons, List.cons_append, List.nil_append]
      have hshape : trail e (pre ++ [i]) ps = ⟨pre ++ [i], false⟩ :: (trail e (pre ++ [i]) ps).tail := by
        have := trail_head e (pre ++ [i]) ps
        cases ht : trail e (pre ++ [i]) ps with
        | nil => rw [ht] at this; simp at this
        | cons x xs => rw [ht] at this; simp at this; simp [this]
      rw [hshape, fqParts]
      simp only [Bool.false_eq_true, if_false, nodeName, hat]
      rw [ih]
      · simp [routeNames, Elem.kids, hc, hn]
      · simp
    | list nm ks =>
      obtain ⟨c, hc, hr⟩ := hr
      have hcne : c ≠ .absent := by
        rintro rfl
        cases ps with
        | nil => exact hr rfl
        | cons => cases hr
      have hat : elemAt e (pre ++ [i]) = some c := by
        rw [elemAt_snoc e pre i hk]; simp [Elem.kids, hc, elemAt_self hcne]
      have hl : isListAt e pre = true := by simp [isListAt, hk]
      have ih := fqParts_trail hP e ps (pre ++ [i]) c hat hr
      simp only [trail, hl, if_true, List.tail_cons, List.cons_append, List.nil_append]
      have hshape : trail e (pre ++ [i]) ps = ⟨pre ++ [i], false⟩ :: (trail e (pre ++ [i]) ps).tail := by
        have := trail_head e (pre ++ [i]) ps
        cases ht : trail e (pre ++ [i]) ps with
        | nil => rw [ht] at this; simp at this
        | cons x xs => rw [ht] at this; simp at this; simp [this]
      rw [hshape, fqParts]
      rotate_left
      · simp
      simp only [if_true, nodeName, List.getLast?_concat, Option.map_some]
      cases hd : decimal i with
      | nil => exact absurd hd (decimal_ne_nil i)
      | cons x xs =>
        rw [fqParts]
        simp only [Bool.false_eq_true, if_false]
        rw [ih]
        simp [routeNames, hc, hd]

theorem trail_ne_nil (e : Elem) (pre ps : Pos) : trail e pre ps ≠ [] := by cases ps <;> simp [trail]

theorem fqName_route {P} (hP : ∀ n, P n → n ≠ []) (e : Elem) (sep : PStr) (p : Pos) (hr : Route P e p) :
    fqName e sep ⟨p, false⟩ = .ok (if p = [] then sep else sep ++ pyJoin sep (routeNames e p)) := by
  have hs := route_some p e hr
  cases hp : p with
  | nil => simp [fqName, parentNode_nil]
  | cons i ps =>
    have hsn : ∃ q j, p = q ++ [j] := by
      have : p ≠ [] := by simp [hp]
      exact ⟨p.dropLast, p.getLast this, (List.dropLast_concat_getLast this).symm⟩
    obtain ⟨q, j, hq⟩ := hsn
    have hpar : parentNode e ⟨p, false⟩ = some (if isListAt e q then ⟨q ++ [j], true⟩ else ⟨q, false⟩) := by
      rw [hq] at hs ⊢; exact parentNode_snoc hs
    have he : elemAt e [] = some e := by
      apply elemAt_nil
      rintro rfl
      rw [elemAt_absent] at hs; cases hs
    have ht := parents_trail e p hs
    have hlist : (parents e ⟨p, false⟩).dropLast.reverse ++ [⟨p, false⟩] = (trail e [] p).tail := by
      rw [← ht]
      have hne : parents e ⟨p, false⟩ ≠ [] := by
        intro h0
        rw [h0] at ht
        rw [hq, trail_snoc] at ht
        have := congrArg List.length ht
        have h1 := List.length_pos_iff.2 (trail_ne_nil e [] q)
        simp at this
        omega
      cases hr : (parents e ⟨p, false⟩).reverse with
      | nil => simp at hr; exact absurd hr hne
      | cons x xs =>
        have : parents e ⟨p, false⟩ = xs.reverse ++ [x] := by
          have := congrArg List.reverse hr
          simpa using this
        simp [this]
    rw [← hp]
    simp only [fqName, hpar, hlist]
    rw [fqParts_trail hP e p [] e he hr]
    have hne : p ≠ [] := by simp [hp]
    have hj : joinParts sep ((routeNames e p).map some) = .ok (pyJoin sep (routeNames e p)) := by
      simp [joinParts, List.all_map, List.filterMap_map]
    simp [hj, hne]

theorem pyIndex_nat {len i : Nat} (h : i < len) : pyIndex len (i : Int) = some i := by
  simp [pyIndex, h]

variable [Runtime]

theorem nodeIndex_dict {e : Elem} {pre : Pos} {nm : Option PStr} {ks : List Elem} {i : Nat} {k : Elem} {n : PStr}
    (h : elemAt e pre = some (.dict nm ks)) (hk : ks[i]? = some k) (hn : k.name = some n)
    (hu : ∀ (j : Nat) k', ks[j]? = some k' → k'.present = true → k'.name = some n → j = i) :
    nodeIndex e ⟨pre, false⟩ (some n) = .ok ⟨pre ++ [i], false⟩ := by
  have hkp : k.present = true := by cases k <;> simp_all [Elem.present, Elem.name]
  have : ks.findIdx? (fun k => k.present && k.name == some n) = some i := by
    rw [List.findIdx?_eq_some_iff_getElem]
    obtain ⟨hi, hik⟩ := List.getElem?_eq_some_iff.1 hk
    refine ⟨hi, by simp [hik, hkp, hn], ?_⟩
    intro j hj hc
    simp only [Bool.and_eq_true, beq_iff_eq] at hc
    have := hu j ks[j] (List.getElem?_eq_getElem _) hc.1 hc.2
    omega
  simp [nodeIndex, h, this]

theorem nodeIndex_list {e : Elem} {pre : Pos} {nm : Option PStr} {ks : List Elem} {i : Nat} {k : Elem}
    (h : elemAt e pre = some (.list nm ks)) (hk : ks[i]? = some k) :
    nodeIndex e ⟨pre, false⟩ (some (decimal i)) = .ok ⟨pre ++ [i], false⟩ := by
  obtain ⟨hi, _⟩ := List.getElem?_eq_some_iff.1 hk
  have : pyInt (decimal i) = some (i : Int) := by rw [← padNat_zero]; exact pyInt_padNat 0 i
  simp [nodeIndex, h, this, pyIndex_nat hi]

theorem route_steps {P} (e : Elem) : ∀ (ps pre : Pos) (k : Elem), elemAt e pre = some k → Route P k ps →
    elWalk e (routeNames k ps) ⟨pre, false⟩ = .ok ⟨pre ++ ps, false⟩ ∧
    branches (treeGraph e) ((routeNames k ps).map fun n => .name (some n)) ⟨pre, false⟩ = [.ok ⟨pre ++ ps, false⟩]
  | [], pre, k, _, _ => by simp [routeNames, elWalk, branches]
  | i :: ps, pre, k, hk, hr => by
    cases k with
    | scalar => cases hr
    | array => cases hr
    | absent => cases hr
    | dict nm ks =>
      obtain ⟨c, n, hc, hn, hpn, hu, hr⟩ := hr
      have hcne : c ≠ .absent := by rintro rfl; cases hn
      have hat : elemAt e (pre ++ [i]) = some c := by
        rw [elemAt_snoc e pre i hk]; simp [Elem.kids, hc, elemAt_self hcne]
      have hi := nodeIndex_dict hk hc hn hu
      have ih := route_steps e ps (pre ++ [i]) c hat hr
      simp only [List.append_assoc, List.cons_append, List.nil_append] at ih
      simp only [routeNames, Elem.kids, hc, hn, Option.getD_some, elWalk, hi, List.map_cons, branches, treeGraph]
      exact ih
    | list nm ks =>
      obtain ⟨c, hc, hr⟩ := hr
      have hcne : c ≠ .absent := by
        rintro rfl
        cases ps with
        | nil => exact hr rfl
        | cons => cases hr
      have hat : elemAt e (pre ++ [i]) = some c := by
        rw [elemAt_snoc e pre i hk]; simp [Elem.kids, hc, elemAt_self hcne]
      have hi := nodeIndex_list hk hc
      have ih := route_steps e ps (pre ++ [i]) c hat hr
      simp only [List.append_assoc, List.cons_append, List.nil_append] at ih
      simp only [routeNames, hc, elWalk, hi, List.map_cons, branches, treeGraph]
      exact ih

omit [Runtime] in
theorem routeNames_all {P Q : PStr → Prop} (hd : ∀ i, Q (decimal i)) (hPQ : ∀ n, P n → Q n) : ∀ (ps : Pos) (e : Elem), Route P e ps →
    ∀ x ∈ routeNames e ps, Q x
  | [], e, _ => by simp [routeNames]
  | i :: ps, e, hr => by
    cases e with
    | scalar => cases hr
    | array => cases hr
    | absent => cases hr
    | dict nm ks =>
      obtain ⟨c, n, hc, hn, hpn, hu, hr⟩ := hr
      have ih := routeNames_all hd hPQ ps c hr
      intro x hx
      simp only [routeNames, Elem.kids, hc, hn, Option.getD_some, List.mem_cons] at hx
      rcases hx with rfl | hx
      · exact hPQ _ hpn
      · exact ih x hx
    | list nm ks =>
      obtain ⟨c, hc, hr⟩ := hr
      have ih := routeNames_all hd hPQ ps c hr
      intro x hx
      simp only [routeNames, hc, List.mem_cons] at hx
      rcases hx with rfl | hx
      · exact hd i
      · exact ih x hx

omit [Runtime] in
theorem routeNames_ne_nil {P} (i : Nat) (ps : Pos) (e : Elem) (hr : Route P e (i :: ps)) : routeNames e (i :: ps) ≠ [] := by
  cases e with
  | scalar => cases hr
  | array => cases hr
  | absent => cases hr
  | dict nm ks => obtain ⟨c, n, hc, _⟩ := hr; simp [routeNames, Elem.kids, hc]
  | list nm ks => simp [routeNames]

theorem decimal_part {c : Char} (hc : digit c = none) (i : Nat) : PartName c (decimal i) := by
  refine ⟨decimal_ne_nil i, fun h => ?_⟩
  obtain ⟨d, hd, rfl⟩ := decimal_mem h
  rw [digit_digitChar hd] at hc; cases hc

omit [Runtime] in
theorem decimal_step (i : Nat) : StepName (decimal i) := by
  refine ⟨decimal_ne_nil i, fun h => ?_⟩
  obtain ⟨d, hd, he⟩ := decimal_mem (List.mem_of_getLast? h)
  revert he
  clear h
  revert d
  decide

omit [Runtime] in
theorem escapable_of_steps (ns : List PStr) (h : ∀ n ∈ ns, StepName n) : Escapable ns := by
  induction ns with
  | nil => trivial
  | cons n ns ih =>
    have hn := h n (by simp)
    have := ih fun x hx => h x (by simp [hx])
    cases ns with
    | nil => exact hn.1
    | cons => exact ⟨hn.1, hn.2, this⟩

/-! ### the tree as a graph -/

omit [Runtime] in
theorem valid_elemAt {e : Elem} {n : Node} (h : n.valid e = true) : (elemAt e n.pos).isSome := by
  simp only [Node.valid, Bool.and_eq_true] at h; exact h.1

theorem tree_parentsTruthy (e : Elem) : ParentsTruthy (treeGraph e) := by
  rintro ⟨p, s⟩ q h
  simp only [treeGraph] at h ⊢
  unfold parentNode at h
  split at h
  · cases h
  · rename_i hv
    simp only [not_or, Bool.not_eq_false] at hv
    have hs := valid_elemAt hv.1
    obtain ⟨r, i, hp⟩ : ∃ r i, p = r ++ [i] := ⟨p.dropLast, p.getLast hv.2, (List.dropLast_concat_getLast hv.2).symm⟩
    have key : nodeTruthy e ⟨r, false⟩ = true := by
      rw [hp] at hs
      obtain ⟨k, hk⟩ := Option.isSome_iff_exists.1 (elemAt_prefix hs)
      rw [elemAt_snoc e r i hk] at hs
      cases hc : k.kids[i]? with
      | none => rw [hc] at hs; simp at hs
      | some c =>
        rw [hc] at hs
        have hcp : c.present = true := by cases c <;> simp_all [Elem.present, elemAt]
        have hany : k.kids.any Elem.present = true := List.any_eq_true.2 ⟨c, List.mem_of_getElem? hc, hcp⟩
        simp only [nodeTruthy, Bool.false_eq_true, if_false, hk]
        cases k with
        | scalar => simp [Elem.kids] at hc
        | absent => simp [Elem.kids] at hc
        | dict => exact hany
        | list => exact hany
        | array => exact hany
    subst hp
    simp only [List.dropLast_concat] at h
    split at h
    · simp at h; subst h; exact key
    · split at h
      · simp at h; subst h; simp [nodeTruthy]
      · simp at h; subst h; exact key

omit [Runtime] in
theorem noListsAll_mem {ks : List Elem} (h : NoListsAll ks) : ∀ k ∈ ks, NoLists k := by
  induction ks with
  | nil => simp
  | cons k ks ih =>
    simp only [NoListsAll] at h
    intro x hx
    rcases List.mem_cons.1 hx with rfl | hx
    · exact h.1
    · exact ih h.2 x hx

omit [Runtime] in
theorem noLists_at {e : Elem} {p : Pos} {k : Elem} (h : NoLists e) (hk : elemAt e p = some k) : NoLists k := by
  induction p generalizing e with
  | nil =>
    have he : e ≠ .absent := by rintro rfl; rw [elemAt_absent] at hk; cases hk
    rw [elemAt_nil e he] at hk
    simp at hk; exact hk ▸ h
  | cons i p ih =>
    have he : e ≠ .absent := by rintro rfl; rw [elemAt_absent] at hk; cases hk
    rw [elemAt_cons e i p he] at hk
    cases hc : e.kids[i]? with
    | none => rw [hc] at hk; simp at hk
    | some c =>
      rw [hc] at hk
      have hm := List.mem_of_getElem? hc
      refine ih ?_ hk
      cases e with
      | scalar => simp [Elem.kids] at hm
      | absent => simp [Elem.kids] at hm
      | list => cases h
      | dict nm ks => exact noListsAll_mem h c hm
      | array nm ks => exact noListsAll_mem h.1 c hm

omit [Runtime] in
theorem pyIndex_lt {len : Nat} {i : Int} {j : Nat} (h : pyIndex len i = some j) : j < len := by
  unfold pyIndex at h
  repeat' split at h
  all_goals first | cases h; omega | cases h

omit [Runtime] in
theorem parentNode_child {e : Elem} {p : Pos} {k c : Elem} {i : Nat} (hk : elemAt e p = some k) (hl : isListAt e p = false)
    (hc : k.kids[i]? = some c) (hp : c.present = true) : parentNode e ⟨p ++ [i], false⟩ = some ⟨p, false⟩ := by
  have hcne : c ≠ .absent := by rintro rfl; cases hp
  have hs : (elemAt e (p ++ [i])).isSome := by
    rw [elemAt_snoc e p i hk]; simp [hc, elemAt_self hcne]
  rw [parentNode_snoc hs]; simp [hl]

theorem tree_parentOfChild (e : Elem) (hn : NoLists e) : ParentOfChild (treeGraph e) := by
  rintro ⟨p, s⟩ n c h
  simp only [treeGraph] at h ⊢
  unfold nodeIndex at h
  split at h
  · cases h
  · rename_i hs
    have hs : s = false := by simpa using hs
    subst hs
    have hnl : isListAt e p = false := by
      unfold isListAt
      split
      · rename_i heq; exact absurd (noLists_at hn heq) (by simp [NoLists])
      · rfl
    split at h
    · rename_i nm ks heq
      simp only at heq
      split at h
      · rename_i i hi
        simp at h; subst h
        rw [List.findIdx?_eq_some_iff_getElem] at hi
        obtain ⟨hlt, hp, _⟩ := hi
        simp only [Bool.and_eq_true] at hp
        exact parentNode_child heq hnl (List.getElem?_eq_getElem hlt) hp.1
      · cases h
    · rename_i nm ks heq
      exact absurd (noLists_at hn heq) (by simp [NoLists])
    · rename_i nm ks heq
      simp only at heq
      split at h
      · cases h
      · split at h
        · cases h
        · split at h
          · cases h
          · rename_i j hj
            simp at h; subst h
            have hlt := pyIndex_lt hj
            have hpr : (ks[j]'hlt).present = true := by
              have := (noLists_at hn heq).2 ks[j] (List.getElem_mem _)
              revert this
              cases ks[j] <;> simp [Elem.present]
            exact parentNode_child heq hnl (List.getElem?_eq_getElem hlt) hpr
    · cases h

omit [Runtime] in
theorem parentNode_invalid {e : Elem} {n : Node} (h : n.valid e = false) : parentNode e n = none := by simp [parentNode, h]

omit [Runtime] in
theorem parentsLoop_none {e : Elem} {n : Node} (h : parentNode e n = none) (f : Nat) : parentsLoop e f n = [] := by
  cases f <;> simp [parentsLoop, h]

theorem tree_rootTop (e : Elem) : RootTop (treeGraph e) := by
  rintro ⟨p, s⟩
  simp only [treeGraph]
  cases hp : parentNode e ⟨p, s⟩ with
  | none =>
    have : rootNode e ⟨p, s⟩ = ⟨p, s⟩ := by simp [rootNode, parents, parentsLoop_none hp]
    rw [this]; exact hp
  | some q =>
    have hv : Node.valid e ⟨p, s⟩ = true := by
      cases h : Node.valid e ⟨p, s⟩ with
      | true => rfl
      | false => rw [parentNode_invalid h] at hp; cases hp
    have hs := valid_elemAt hv
    cases s with
    | false => rw [rootNode_elem e p hs]; exact parentNode_nil e false
    | true =>
      have hne : p ≠ [] := by rintro rfl; rw [parentNode_nil] at hp; cases hp
      obtain ⟨r, i, hr⟩ : ∃ r i, p = r ++ [i] := ⟨p.dropLast, p.getLast hne, (List.dropLast_concat_getLast hne).symm⟩
      subst hr
      have hl : isListAt e r = true := by
        simp only [Node.valid, Bool.and_eq_true, List.dropLast_concat, Bool.not_true, Bool.false_or] at hv
        have := hv.2
        unfold isListAt
        split at this
        · rename_i heq; rw [heq]
        · cases this
      have hq := parentNode_slot hs hl
      have hrs := elemAt_prefix hs
      have hrr : rootNode e ⟨r ++ [i], true⟩ = ⟨[], false⟩ := by
        have h1 := parentsLoop_trail e r.length r (2 * r.length + 1) rfl (by omega) hrs
        have h2 := trail_head e [] r
        rw [← h1] at h2
        have hlen : 2 * (r ++ [i]).length = 2 * r.length + 1 + 1 := by simp; omega
        simp only [rootNode, parents, hlen]
        rw [parentsLoop, hq]
        simp only
        generalize parentsLoop e (2 * r.length + 1) ⟨r, false⟩ = l at h2
        rw [List.head?_append] at h2
        cases l with
        | nil => simp at h2; simp [h2]
        | cons x xs =>
          rw [List.head?_reverse] at h2
          rw [List.getLast?_cons_cons]
          cases hg : (x :: xs).getLast? with
          | none => simp at hg
          | some y => rw [hg] at h2; simp at h2; simp [h2]
      rw [hrr]; exact parentNode_nil e false

end Flatland
