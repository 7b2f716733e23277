import Verif.Proofs.Nodes
import Verif.Props.Paths
/-!
C16: `el(fq_name())` finds the element again; and the path properties C17, C18 and C20 on actual element trees.
-/
namespace Flatland
open Flatland.Spec

section
variable [Runtime]

/-! ### C16 -/

/-- **C16.** The dotted path of an element that is reached through Lists and uniquely named fields leads back to that element,
from any element of the tree, for any separator whose first character is no digit and occurs in none of the names. -/
theorem C16_el_fq_name (e : Elem) (c : Char) (cs : PStr) (hc : digit c = none) (pos : Pos) (h : Route (PartName c) e pos)
    (start : Pos) (hs : (elemAt e start).isSome) :
    ∃ path, fqName e (c :: cs) ⟨pos, false⟩ = .ok path ∧ elPath e ⟨start, false⟩ path (c :: cs) = .ok ⟨pos, false⟩ := by
  refine ⟨_, fqName_route (fun n hn => hn.1) e (c :: cs) pos h, ?_⟩
  have hroot := rootNode_elem e start hs
  have he : elemAt e [] = some e := by
    apply elemAt_nil
    rintro rfl
    rw [elemAt_absent] at hs; cases hs
  cases pos with
  | nil => simp [elPath, parseElPath, elWalk, hroot]
  | cons i ps =>
    have hw := (route_steps e (i :: ps) [] e he h).1
    have hne := routeNames_ne_nil i ps e h
    have hall := routeNames_all (decimal_part hc) (fun n hn => hn) (i :: ps) e h
    have hsplit : pySplit (c :: cs) (pyJoin (c :: cs) (routeNames e (i :: ps))) = routeNames e (i :: ps) :=
      pySplit_pyJoin c cs _ hne fun x hx => (hall x hx).2
    have hjne : pyJoin (c :: cs) (routeNames e (i :: ps)) ≠ [] := by
      cases hr : routeNames e (i :: ps) with
      | nil => exact absurd hr hne
      | cons x xs =>
        have := (hall x (by simp [hr])).1
        cases xs <;> simp [pyJoin, this]
    have hdrop : ((c :: cs) ++ pyJoin (c :: cs) (routeNames e (i :: ps))).drop (c :: cs).length = pyJoin (c :: cs) (routeNames e (i :: ps)) := by
      rw [List.drop_left]
    have hsw : startsWith ((c :: cs) ++ pyJoin (c :: cs) (routeNames e (i :: ps))) (c :: cs) = true := by
      simp [startsWith]
    have hpne : (c :: cs) ++ pyJoin (c :: cs) (routeNames e (i :: ps)) ≠ c :: cs := by
      intro h0
      exact hjne (List.append_right_eq_self.1 h0)
    simp only [elPath, parseElPath, List.cons_ne_nil, if_false, hpne, hsw, if_true, hdrop, hsplit, hroot]
    rw [hw]; rfl

omit [Runtime] in
/-- **C16**, what the path is: the separator before each step's name or index, in order from the root. -/
theorem C16_fq_name_form (e : Elem) (c : Char) (cs : PStr) (pos : Pos) (h : Route (PartName c) e pos) (hp : pos ≠ []) :
    fqName e (c :: cs) ⟨pos, false⟩ = .ok ((routeNames e pos).flatMap fun n => c :: cs ++ n) := by
  rw [fqName_route (fun n hn => hn.1) e (c :: cs) pos h, if_neg hp]
  have hne : routeNames e pos ≠ [] := by
    cases pos with
    | nil => exact absurd rfl hp
    | cons i ps => exact routeNames_ne_nil i ps e h
  congr 1
  generalize routeNames e pos = ns at hne ⊢
  cases ns with
  | nil => exact absurd rfl hne
  | cons x xs =>
    clear hne
    induction xs generalizing x with
    | nil => simp [pyJoin]
    | cons y ys ih =>
      have := ih y
      simp only [pyJoin, List.flatMap_cons, List.append_assoc] at this ⊢
      rw [this]

/-- **C16**: two different elements never share a path. -/
theorem C16_fq_name_injective (e : Elem) (c : Char) (cs : PStr) (hc : digit c = none) (p q : Pos)
    (hp : Route (PartName c) e p) (hq : Route (PartName c) e q)
    (h : fqName e (c :: cs) ⟨p, false⟩ = fqName e (c :: cs) ⟨q, false⟩) : p = q := by
  have hs : (elemAt e p).isSome := route_some p e hp
  obtain ⟨t, ht, htp⟩ := C16_el_fq_name e c cs hc p hp p hs
  obtain ⟨u, hu, huq⟩ := C16_el_fq_name e c cs hc q hq p hs
  rw [ht, hu] at h
  cases h
  rw [htp] at huq
  simpa using huq

/-! ### find on element trees -/

/-- **C17, C18** together: the escaped names and indexes of the steps to an element, joined by slashes after a leading slash,
find that element and nothing else, from any element of the tree, strictly or not. -/
theorem C17_find_addresses (e : Elem) (pos : Pos) (h : Route StepName e pos) (start : Pos) (hs : (elemAt e start).isSome)
    (strict : Bool) :
    ∃ ops, tokenize ('/' :: slashed (routeNames e pos)) = .ok ops ∧
      Evaluates (treeGraph e) strict ops ⟨start, false⟩ (.ok [⟨pos, false⟩]) := by
  have hall := routeNames_all decimal_step (fun n hn => hn) pos e h
  refine ⟨_, C17_absolute_path _ (escapable_of_steps _ hall), ?_⟩
  have he : elemAt e [] = some e := by
    apply elemAt_nil
    rintro rfl
    rw [elemAt_absent] at hs; cases hs
  have hb := (route_steps e pos [] e he h).2
  have hbr : branches (treeGraph e) (.top :: (routeNames e pos).map fun n => .name (some n)) ⟨start, false⟩ = [.ok ⟨pos, false⟩] := by
    simp only [branches]
    have : (treeGraph e).root ⟨start, false⟩ = ⟨[], false⟩ := rootNode_elem e start hs
    rw [this]; exact hb
  have := C18_find_branches (treeGraph e) (tree_parentsTruthy e) strict (.top :: (routeNames e pos).map fun n => .name (some n))
    ⟨start, false⟩ (by rw [hbr]; simp) 
  rw [hbr] at this
  exact this

/-- **C19** on a List or Array: `[i]` selects member `i`, from the front or (with a minus sign) from the end. -/
theorem C19_selects_member (e : Elem) (pos : Pos) (nm : Option PStr) (ks : List Elem)
    (hl : elemAt e pos = some (.list nm ks) ∨ elemAt e pos = some (.array nm ks)) {ds : PStr} {i : Nat} (hd : Digits ds i)
    (hi : i < ks.length) (strict : Bool) :
    ∃ ops, tokenize ('[' :: ds ++ [']']) = .ok ops ∧
      Evaluates (treeGraph e) strict ops ⟨pos, false⟩ (.ok [⟨pos ++ [i], false⟩]) := by
  refine ⟨_, C19_index hd, ?_⟩
  have hx : (treeGraph e).index ⟨pos, false⟩ (some ds) = .ok ⟨pos ++ [i], false⟩ := by
    have hp : pyInt ds = some (i : Int) := pyInt_spells (.inl ⟨i, hd, rfl⟩)
    rcases hl with h | h <;> simp [treeGraph, nodeIndex, h, hp, pyIndex_nat hi]
  have hb : branches (treeGraph e) [.name (some ds)] ⟨pos, false⟩ = [.ok ⟨pos ++ [i], false⟩] := by
    simp only [branches, hx]
  have := C18_find_branches (treeGraph e) (tree_parentsTruthy e) strict [.name (some ds)] ⟨pos, false⟩ (by rw [hb]; simp)
  rw [hb] at this
  exact this

/-- **C19** on a List or Array: a slice of the members, in Python's order. -/
theorem C19_selects_slice (e : Elem) (pos : Pos) (nm : Option PStr) (ks : List Elem)
    (hl : elemAt e pos = some (.list nm ks) ∨ elemAt e pos = some (.array nm ks)) (hk : ∀ k ∈ ks, k ≠ .absent)
    (a b c : Option Int) (strict : Bool) :
    Evaluates (treeGraph e) strict [.slice a b c] ⟨pos, false⟩
      (.ok (pySlice ((List.range ks.length).map fun i => ⟨pos ++ [i], false⟩) a b c)) := by
  have hch : (treeGraph e).children ⟨pos, false⟩ = (List.range ks.length).map fun i => ⟨pos ++ [i], false⟩ := by
    have : ∀ n, n ≤ ks.length → (List.range n).filterMap (fun i => match ks[i]? with
        | some c => if c.present then some (⟨pos ++ [i], false⟩ : Node) else none
        | none => none) = (List.range n).map fun i => ⟨pos ++ [i], false⟩ := by
      intro n
      induction n with
      | zero => simp
      | succ n ih =>
        intro hn
        have hpn : (ks[n]'(by omega)).present = true := by
          have := hk ks[n] (List.getElem_mem _)
          revert this
          cases ks[n] <;> simp [Elem.present]
        simp [List.range_succ, ih (by omega), List.getElem?_eq_getElem (show n < ks.length by omega), hpn]
    have := this ks.length (Nat.le_refl _)
    rcases hl with h | h <;> simp only [treeGraph, nodeChildren, h, Bool.false_eq_true, if_false] <;> exact this
  have hb : branches (treeGraph e) [.slice a b c] ⟨pos, false⟩ =
      (pySlice ((List.range ks.length).map fun i => (⟨pos ++ [i], false⟩ : Node)) a b c).map .ok := by
    simp only [branches, hch]
    generalize pySlice _ a b c = l
    induction l <;> simp_all
  have := C18_find_branches (treeGraph e) (tree_parentsTruthy e) strict [.slice a b c] ⟨pos, false⟩ (by rw [hb]; simp)
  rw [hb] at this
  have hr : reached ((pySlice ((List.range ks.length).map fun i => (⟨pos ++ [i], false⟩ : Node)) a b c).map .ok) =
      pySlice ((List.range ks.length).map fun i => (⟨pos ++ [i], false⟩ : Node)) a b c := by
    generalize pySlice _ a b c = l
    rw [reached, List.filterMap_map]
    induction l <;> simp_all
  rw [hr] at this
  exact this

/-- **C20** on an element tree without Lists: simplifying the steps does not change what is found, provided every named step
exists and no `..` climbs out of a slice. -/
theorem C20_tree_partial (e : Elem) (hn : NoLists e) (ops : List Op) (start : Node)
    (hu : upsMatched none ops = true) (hok : ∀ er, .error er ∉ branches (treeGraph e) ops start) :
    branches (treeGraph e) (canonicalize ops) start = branches (treeGraph e) ops start :=
  C20_canonicalize_partial _ (tree_parentOfChild e hn) (tree_rootTop e) ops start hu hok

end

/-! ### where C16, C18 and C20 fail, and cases of the above -/

section
attribute [local instance] Runtime.ascii

/-- Dict `d`: a List `l` of two Dicts with fields `a.b` and `c`, an Array `t` of two strings -/
private def exTree : Elem :=
  .dict (some ['d']) [
    .list (some ['l']) [
      .dict none [.scalar (some "a/b".toList) ⟨.str ['x'], ['x'], none⟩, .scalar (some ['c']) .fresh],
      .dict none [.scalar (some "a/b".toList) .fresh, .scalar (some ['c']) .fresh]],
    .array (some ['t']) [.scalar none .fresh, .scalar none .fresh]]

private theorem exRoute (P : PStr → Prop) (hl : P ['l']) (hab : P "a/b".toList) : Route P exTree [0, 1, 0] := by
  refine ⟨_, _, rfl, rfl, hl, ?_, _, rfl, _, _, rfl, rfl, hab, ?_, by simp [Route]⟩
  · intro j k' hj _ hn
    match j with
    | 0 => rfl
    | 1 => simp at hj; subst hj; simp [Elem.name] at hn
    | j + 2 => simp at hj
  · intro j k' hj _ hn
    match j with
    | 0 => rfl
    | 1 => simp at hj; subst hj; simp [Elem.name] at hn
    | j + 2 => simp at hj

example : ∃ path, fqName exTree ['.'] ⟨[0, 1, 0], false⟩ = .ok path ∧
    elPath exTree ⟨[1, 0], false⟩ path ['.'] = .ok ⟨[0, 1, 0], false⟩ :=
  C16_el_fq_name exTree '.' [] rfl _ (exRoute _ ⟨by decide, by decide⟩ ⟨by decide, by decide⟩) [1, 0] rfl
example : fqName exTree ['.'] ⟨[0, 1, 0], false⟩ = .ok ".l.1.a/b".toList := by
  rw [C16_fq_name_form exTree '.' [] _ (exRoute _ ⟨by decide, by decide⟩ ⟨by decide, by decide⟩) (by decide)]
  have : decimal 1 = ['1'] := by rw [decimal]; decide
  simp [routeNames, exTree, Elem.kids, Elem.name, this]
example : ∃ ops, tokenize ('/' :: slashed (routeNames exTree [0, 1, 0])) = .ok ops ∧
    Evaluates (treeGraph exTree) true ops ⟨[1], false⟩ (.ok [⟨[0, 1, 0], false⟩]) :=
  C17_find_addresses exTree _ (exRoute _ ⟨by decide, by decide⟩ ⟨by decide, by decide⟩) [1] rfl true
example : Evaluates (treeGraph exTree) true [.slice none none (some (-1))] ⟨[1], false⟩ (.ok [⟨[1, 1], false⟩, ⟨[1, 0], false⟩]) :=
  C19_selects_slice exTree [1] _ _ (.inr rfl) (by simp) none none (some (-1)) true

/-- **C16** fails for members of an Array: they have no name, so the path cannot be built, -/
theorem C16_array_member_raises : fqName exTree ['.'] ⟨[1, 0], false⟩ = .error .type := by decide

/-- and if the member schema has a name, the path names it although Arrays look up members by index. -/
theorem C16_named_array_member_lost :
    let e := Elem.array (some ['t']) [.scalar (some ['m']) .fresh]
    fqName e ['.'] ⟨[0], false⟩ = .ok ".m".toList ∧ elPath e ⟨[], false⟩ ".m".toList ['.'] = .error .key := by decide

/-- **C16** fails for a field whose name contains the separator. -/
theorem C16_separator_in_name_lost :
    let e := Elem.dict none [.scalar (some "a.b".toList) .fresh]
    fqName e ['.'] ⟨[0], false⟩ = .ok ".a.b".toList ∧ elPath e ⟨[], false⟩ ".a.b".toList ['.'] = .error .key := by decide

/-- **C18**, **C20**: `..` from a List member leads to a hidden slot, not to the List: it takes `../..` to get there, -/
theorem C18_list_parent_is_slot :
    branches (treeGraph exTree) [.up] ⟨[0, 1], false⟩ = [.ok ⟨[0, 1], true⟩] ∧
    branches (treeGraph exTree) [.up, .up] ⟨[0, 1], false⟩ = [.ok ⟨[0], false⟩] := by decide

/-- so a sibling cannot be reached as `../0`: the lookup fails with an error that is not a LookupError. -/
theorem C18_list_sibling_raises :
    branches (treeGraph exTree) [.up, .name (some ['0'])] ⟨[0, 1], false⟩ = [.error .notImplemented] := by decide

/-- **C20** fails on a tree with Lists: `0/../1` simplifies to `1`, but step by step it ends at the slot. -/
theorem C20_list_up_differs :
    branches (treeGraph exTree) [.name (some ['0']), .up, .name (some ['1'])] ⟨[0], false⟩ = [.error .notImplemented] ∧
    branches (treeGraph exTree) (canonicalize [.name (some ['0']), .up, .name (some ['1'])]) ⟨[0], false⟩ = [.ok ⟨[0, 1], false⟩] := by
  decide

example :
    let e := Elem.dict none [.dict (some ['x']) [.scalar (some ['y']) .fresh], .scalar (some ['z']) .fresh]
    branches (treeGraph e) (canonicalize [.name (some ['x']), .name (some ['y']), .up, .up, .name (some ['z'])]) ⟨[], false⟩ =
      [.ok ⟨[1], false⟩] := by
  intro e
  have h : branches (treeGraph e) [.name (some ['x']), .name (some ['y']), .up, .up, .name (some ['z'])] ⟨[], false⟩ =
      [.ok ⟨[1], false⟩] := by decide
  rw [C20_tree_partial e (by simp [e, NoLists, NoListsAll]) _ _ (by decide) (by rw [h]; simp)]
  exact h
end
end Flatland
