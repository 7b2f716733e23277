import Verif.Proofs.RichNodes
import Verif.Props.Nodes
/-! # C92: paths in forms with Compounds and JoinedStrings -/
namespace Flatland
open Flatland.Spec

section
/-- Whatever counts as true: a lookup does what it would do if elements whose parent is false had none, that is, `..` stays at such an element. -/
theorem C92_false_parents {N} (g : Graph N) (strict : Bool) (ops : List Op) (el : N) (r : Except PyErr (List N)) :
    Evaluates g strict ops el r ↔ Evaluates (withoutFalseParents g) strict ops el r := by
  simp only [Evaluates, evalLoop_cut]

/-- So the branch-by-branch meaning of paths (C18) holds of any tree, false parents being passed over: without failures (or only missing children,
for a lookup that is not strict), exactly the ends of the branches are found, in order; -/
theorem C92_find_branches {N} (g : Graph N) (strict : Bool) (ops : List Op) (el : N)
    (h : ∀ e, .error e ∈ branches (withoutFalseParents g) ops el → strict = false ∧ ChildMissing e) :
    Evaluates g strict ops el (.ok (reached (branches (withoutFalseParents g) ops el))) :=
  (C92_false_parents g strict ops el _).2 (C18_find_branches _ (cut_parentsTruthy g) strict ops el h)

/-- a strict lookup raises LookupError if and only if some branch misses a child; -/
theorem C92_strict_raises_iff {N} (g : Graph N) (ops : List Op) (el : N) (hL : ∀ x n e, g.index x n = .error e → ChildMissing e) :
    Evaluates g true ops el (.error .lookup) ↔ ∃ e, .error e ∈ branches (withoutFalseParents g) ops el := by
  rw [C92_false_parents]
  exact C18_strict_raises_iff _ (cut_parentsTruthy g) ops el hL

/-- and failures of another kind escape. -/
theorem C92_other_errors_escape {N} (g : Graph N) (strict : Bool) (ops : List Op) (el : N)
    (h : ∃ e, .error e ∈ branches (withoutFalseParents g) ops el ∧ ¬ ChildMissing e) : ∃ e, Evaluates g strict ops el (.error e) := by
  obtain ⟨e, he⟩ := C18_other_errors_escape _ (cut_parentsTruthy g) strict ops el h
  exact ⟨e, (C92_false_parents g strict ops el _).2 he⟩

variable [Runtime]

/-- In a form with Compounds and JoinedStrings, filled in or not, the escaped names and indexes of the steps to an element, joined by slashes after a
leading slash, find that element and nothing else, from any element, strictly or not. -/
theorem C92_find_addresses (e : NElem) (pos : Pos) (names : List PStr) (h : LeadsTo StepName true e pos names) (start : Pos) (s : NElem)
    (hs : At e start s) (strict : Bool) :
    ∃ ops, tokenize ('/' :: slashed names) = .ok ops ∧ Evaluates (richGraph e) strict ops ⟨start, false⟩ (.ok [⟨pos, false⟩]) := by
  obtain ⟨hw, rfl⟩ := leads_way h
  refine ⟨_, C17_absolute_path _ (escapable_of_steps _ (wayNames_step pos _ hw)), ?_⟩
  have hs := at_some hs
  have he : elemAt (shape e) [] = some (shape e) := by
    apply elemAt_nil
    intro h0
    rw [h0, elemAt_absent] at hs; cases hs
  have hbr : branches (withoutFalseParents (richGraph e)) (.top :: (wayNames (shape e) pos).map fun n => .name (some n)) ⟨start, false⟩ =
      [.ok ⟨pos, false⟩] := by
    have hr : (withoutFalseParents (richGraph e)).root ⟨start, false⟩ = ⟨[], false⟩ := rootNode_elem (shape e) start hs
    simp only [branches]
    rw [hr]
    exact way_steps (shape e) (withoutFalseParents (richGraph e)) rfl pos [] (shape e) he hw
  have := C92_find_branches (richGraph e) strict (.top :: (wayNames (shape e) pos).map fun n => .name (some n)) ⟨start, false⟩ (by rw [hbr]; simp)
  rw [hbr] at this
  exact this

/-- where one step `..` from a child of a container leads: from a member of a List to its slot and by another step to the List; from a child of anything else
to it, unless it is a Compound or JoinedString that is blank, when the step stays at the child. -/
theorem C92_up (e : NElem) (pos : Pos) (i : Nat) (k : NElem) (x : NElem) (hk : nElemAt e pos = some k) (hc : At e (pos ++ [i]) x) (strict : Bool) :
    ((∃ n ks, k = .list n ks) → Evaluates (richGraph e) strict [.up] ⟨pos ++ [i], false⟩ (.ok [⟨pos ++ [i], true⟩]) ∧
      Evaluates (richGraph e) strict [.up, .up] ⟨pos ++ [i], false⟩ (.ok [⟨pos, false⟩])) ∧
    ((¬ ∃ n ks, k = .list n ks) → ¬ BlankWhole k → Evaluates (richGraph e) strict [.up] ⟨pos ++ [i], false⟩ (.ok [⟨pos, false⟩])) ∧
    (BlankWhole k → Evaluates (richGraph e) strict [.up] ⟨pos ++ [i], false⟩ (.ok [⟨pos ++ [i], false⟩])) := by
  have hc := at_some hc
  have hpre := elemAt_prefix hc
  have hat : elemAt (shape e) pos = some (shape k) := by rw [shape_at e pos hpre, hk]; rfl
  have hkid : ∃ x ∈ k.kids, x ≠ .absent := by
    rw [elemAt_snoc (shape e) pos i hat, shape_kids, shapes_getElem?] at hc
    cases hx : k.kids[i]? with
    | none => rw [hx] at hc; cases hc
    | some x =>
      refine ⟨x, List.mem_of_getElem? hx, ?_⟩
      rintro rfl
      rw [hx] at hc
      cases hc
  have htr : (richGraph e).truthy ⟨pos, false⟩ = nTruthy k := by simp [richGraph, hk]
  have hslot : (richGraph e).truthy ⟨pos ++ [i], true⟩ = true := by simp [richGraph]
  have hpar := parentNode_snoc hc
  have hlist : isListAt (shape e) pos = true ↔ ∃ n ks, k = .list n ks := by
    simp only [isListAt, hat]
    cases k <;> simp [shape]
  have hp : (richGraph e).parent ⟨pos ++ [i], false⟩ = some (if isListAt (shape e) pos then ⟨pos ++ [i], true⟩ else ⟨pos, false⟩) := hpar
  have ev : ∀ ops q, runOps (richGraph e) strict ops ⟨pos ++ [i], false⟩ = .found q →
      Evaluates (richGraph e) strict ops ⟨pos ++ [i], false⟩ (.ok [q]) := by
    intro ops q hq
    refine ⟨2, fun m hm => ?_⟩
    obtain ⟨m, rfl⟩ : ∃ m', m = m' + 2 := ⟨m - 2, by omega⟩
    simp [evalLoop, hq]
  refine ⟨?_, ?_, ?_⟩
  · intro hl
    have hl' := hlist.2 hl
    rw [hl', if_pos rfl] at hp
    have hp2 : (richGraph e).parent ⟨pos ++ [i], true⟩ = some ⟨pos, false⟩ := parentNode_slot hc hl'
    have hnb : ¬ BlankWhole k := by obtain ⟨n, ks, rfl⟩ := hl; simp [BlankWhole]
    have ht : nTruthy k = true := by
      cases ht : nTruthy k with
      | true => rfl
      | false => exact absurd ((nTruthy_blank k hkid).1 ht) hnb
    exact ⟨ev _ _ (by simp [runOps, hp, hslot]), ev _ _ (by simp [runOps, hp, hp2, hslot, htr, ht])⟩
  · intro hl hnb
    have hl' : isListAt (shape e) pos = false := by simpa using fun h => hl (hlist.1 h)
    rw [hl'] at hp
    have ht : nTruthy k = true := by
      cases ht : nTruthy k with
      | true => rfl
      | false => exact absurd ((nTruthy_blank k hkid).1 ht) hnb
    exact ev _ _ (by simp [runOps, hp, htr, ht])
  · intro hb
    have hl' : isListAt (shape e) pos = false := by
      simp only [isListAt, hat]
      cases k <;> simp_all [BlankWhole, shape]
    rw [hl'] at hp
    have ht := (nTruthy_blank k hkid).2 hb
    exact ev _ _ (by simp [runOps, hp, htr, ht])

/-- Hence from a child of a blank Compound or JoinedString, no number of `..` leads anywhere else. -/
theorem C92_stuck (e : NElem) (pos : Pos) (i : Nat) (k : NElem) (x : NElem) (hk : nElemAt e pos = some k) (hc : At e (pos ++ [i]) x)
    (hb : BlankWhole k) (strict : Bool) (n : Nat) :
    Evaluates (richGraph e) strict (List.replicate n .up) ⟨pos ++ [i], false⟩ (.ok [⟨pos ++ [i], false⟩]) := by
  have hup := (C92_up e pos i k x hk hc strict).2.2 hb
  have hstep : ∀ ops, runOps (richGraph e) strict (.up :: ops) ⟨pos ++ [i], false⟩ = runOps (richGraph e) strict ops ⟨pos ++ [i], false⟩ := by
    obtain ⟨m, hm⟩ := hup
    have h2 := hm (m + 2) (by omega)
    intro ops
    simp only [runOps] at h2 ⊢
    cases hp : (richGraph e).parent ⟨pos ++ [i], false⟩ with
    | none => rfl
    | some p =>
      cases ht : (richGraph e).truthy p with
      | false => simp [ht]
      | true =>
        simp [evalLoop, runOps, hp, ht] at h2
        rw [h2]; simp
  have : ∀ n, runOps (richGraph e) strict (List.replicate n .up) ⟨pos ++ [i], false⟩ = .found ⟨pos ++ [i], false⟩ := by
    intro n
    induction n with
    | zero => rfl
    | succ n ih => rw [List.replicate_succ, hstep, ih]
  refine ⟨2, fun m hm => ?_⟩
  obtain ⟨m, rfl⟩ : ∃ m', m = m' + 2 := ⟨m - 2, by omega⟩
  simp [evalLoop, this n]

/-- The dotted path of an element is built from the names and indexes that lead to it, also through Compounds, and `el` with it leads back (C16),
whatever has been filled in. -/
theorem C92_el_fq_name (e : NElem) (c : Char) (cs : PStr) (hc : digit c = none) (pos : Pos) (names : List PStr)
    (h : LeadsTo (PartName c) false e pos names) (start : Pos) (s : NElem) (hs : At e start s) :
    ∃ path, fqName (shape e) (c :: cs) ⟨pos, false⟩ = .ok path ∧ (pos ≠ [] → path = names.flatMap fun n => c :: cs ++ n) ∧
      elPath (shape e) ⟨start, false⟩ path (c :: cs) = .ok ⟨pos, false⟩ := by
  obtain ⟨hr, rfl⟩ := leads_route h
  obtain ⟨path, hp, hl⟩ := C16_el_fq_name (shape e) c cs hc pos hr start (at_some hs)
  refine ⟨path, hp, fun hne => ?_, hl⟩
  have := C16_fq_name_form (shape e) c cs pos hr hne
  rw [hp] at this
  exact Except.ok.inj this

end

section
attribute [local instance] Runtime.ascii

/-- a form with a date that lacks its day, and a JoinedString with two members -/
def exRichForm : NElem :=
  .dict none [
    .compound (some ['d']) [] .none [.scalar (some "year".toList) ⟨.int 2024, "2024".toList, none⟩, .scalar (some "month".toList) ⟨.int 2, ['2'], none⟩,
      .scalar (some "day".toList) .fresh],
    .joined (some ['t']) "x,y".toList [.scalar none ⟨.str ['x'], ['x'], none⟩, .scalar none ⟨.str ['y'], ['y'], none⟩]]

example : BlankWhole (.compound (some ['d']) [] .none []) := .inl rfl
-- `..` from the month stays there, however often; `/d/month` works from it, and `/t/1` finds the second member
example : Evaluates (richGraph exRichForm) true [.up, .up] ⟨[0, 1], false⟩ (.ok [⟨[0, 1], false⟩]) :=
  C92_stuck exRichForm [0] 1 _ _ rfl ⟨rfl, by simp⟩ (.inl rfl) true 2
example : LeadsTo StepName true exRichForm [1, 1] [['t'], ['1']] := by
  rw [show ['1'] = decimal 1 by decide +kernel]
  refine .field (n := ['t']) .dict rfl rfl ⟨by simp, by simp⟩ ?_ (.member (i := 1) (.joined rfl) rfl (.here ?_))
  · intro j k' hj _ hn
    match j with
    | 0 => simp at hj; subst hj; simp [nameN] at hn
    | 1 => rfl
    | j + 2 => simp at hj
  · simp
example : LeadsTo (PartName '.') false exRichForm [0, 2] [['d'], "day".toList] := by
  refine .field (n := ['d']) .dict rfl rfl ⟨by simp, by simp⟩ ?_ (.field .compound rfl rfl ⟨by simp, by decide⟩ ?_ (.here ?_))
  · intro j k' hj _ hn
    match j with
    | 0 => rfl
    | 1 => simp at hj; subst hj; simp [nameN] at hn
    | j + 2 => simp at hj
  · intro j k' hj _ hn
    match j with
    | 0 => simp at hj; subst hj; revert hn; decide
    | 1 => simp at hj; subst hj; revert hn; decide
    | 2 => rfl
    | j + 3 => simp at hj
  · simp
example : Evaluates (richGraph exRichForm) true [.up] ⟨[1, 1], false⟩ (.ok [⟨[1], false⟩]) :=
  (C92_up exRichForm [1] 1 _ _ rfl ⟨rfl, by simp⟩ true).2.1 (by rintro ⟨_, _, h⟩; cases h) (by simp [BlankWhole])

end
end Flatland
