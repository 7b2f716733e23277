import Verif.Proofs.Slices
/-! Properties C17 - C22: path expressions and `find`. -/
namespace Flatland
open Flatland.Spec

section
variable [Runtime]

/-! ### C17: path escaping -/

/-- C17. `/` followed by escaped names, joined with slashes, compiles to "start at the root" and exactly those names. -/
theorem C17_absolute_path (names : List PStr) (h : Escapable names) :
    tokenize ('/' :: slashed names) = .ok (.top :: names.map fun n => .name (some n)) := by
  unfold tokenize
  rw [findAll_slash _ _ (by simp), findAll_slashed names h]
  simp only [tokLoop, if_true]
  rw [tokLoop_names names h]
  simp

/-- C17, without the leading slash: exactly those names, starting from the element itself. -/
theorem C17_relative_path (names : List PStr) (h : Escapable names) :
    tokenize (slashed names) = .ok (names.map fun n => .name (some n)) := by
  unfold tokenize
  rw [findAll_slashed names h, tokLoop_names names h]
  simp

omit [Runtime] in
/-- C17: names without `/ . [ ]` may be written as they are. -/
theorem C17_plain_names (n : PStr) (h : ∀ c ∈ n, c ∉ ['/', '.', '[', ']']) : escape n = n := by
  induction n with
  | nil => rfl
  | cons c n ih =>
    have hc := h c (by simp)
    have : special c = false := by simp [special] at hc ⊢; grind
    rw [escape, this]
    simp [ih fun x hx => h x (by simp [hx])]

end

section
attribute [local instance] Runtime.ascii

/-- A name that ends in a backslash cannot be followed by another step: the slash is taken for an escaped one. -/
theorem C17_backslash_name_not_addressable :
    tokenize (slashed ["a\\".toList, "b".toList]) = .ok [.name (some "a/b".toList)] := by decide

/-- A bracket after an escaped name makes the name raw again (the escape stays in it). -/
theorem C17_bracket_undoes_escape :
    tokenize "a\\/b[x]".toList = .ok [.name (some "a\\/b[x]".toList)] ∧
    tokenize "foo/[x]".toList = .ok [.name (some "/[x]".toList)] := by decide

example : Escapable ["a/b".toList, "x.y[0]".toList, "..".toList, "c\\".toList] := by
  simp [Escapable]
example : slashed ["a/b".toList, "..".toList] = "a\\/b/\\.\\.".toList := by decide
example : tokenize ('/' :: slashed ["a/b".toList, "..".toList]) =
    .ok [.top, .name (some "a/b".toList), .name (some "..".toList)] := by decide
end

/-! ### C18: evaluation -/

/-- C18. When no branch fails (or, for a non-strict lookup, the only failures are missing children), the lookup ends and
returns the elements that the branches reach, in order. -/
theorem C18_find_branches {N} (g : Graph N) (hT : ParentsTruthy g) (strict : Bool) (ops : List Op) (el : N)
    (h : ∀ e, .error e ∈ branches g ops el → strict = false ∧ ChildMissing e) :
    Evaluates g strict ops el (.ok (reached (branches g ops el))) := by
  simp only [childMissing_iff] at h
  obtain ⟨n, hn⟩ := evalLoop_generation g hT strict ops.length ops (Nat.le_refl _) [el] [] (by
    intro e he hb
    simp only [List.flatMap_cons, List.flatMap_nil, List.append_nil] at he
    obtain ⟨h1, h2⟩ := h e he
    rcases hb with hb | hb
    · rw [h1] at hb; cases hb
    · rw [h2] at hb; cases hb)
  exact ⟨n, fun m hm => by simpa using hn m hm⟩

/-- C18. A strict lookup raises LookupError exactly when some branch misses a child (all failures being of that kind). -/
theorem C18_strict_raises_iff {N} (g : Graph N) (hT : ParentsTruthy g) (ops : List Op) (el : N)
    (hL : ∀ x n e, g.index x n = .error e → ChildMissing e) :
    Evaluates g true ops el (.error .lookup) ↔ ∃ e, .error e ∈ branches g ops el := by
  simp only [childMissing_iff] at hL
  have hall : ∀ ops el e, .error e ∈ branches g ops el → e.isLookup = true := by
    intro ops
    induction ops with
    | nil => intro el e he; simp [branches] at he
    | cons op ops ih =>
      intro el e he
      cases op with
      | top => exact ih _ _ he
      | up => exact ih _ _ he
      | here => exact ih _ _ he
      | name n =>
        simp only [branches] at he
        cases hi : g.index el n with
        | ok c => rw [hi] at he; exact ih _ _ he
        | error e' => rw [hi] at he; simp at he; subst he; exact hL _ _ _ hi
      | slice a b c =>
        simp only [branches, List.mem_flatMap] at he
        obtain ⟨x, _, hx⟩ := he
        exact ih _ _ hx
  constructor
  · rintro ⟨n, hn⟩
    apply Classical.byContradiction
    intro hne
    obtain ⟨n', hn'⟩ := C18_find_branches g hT true ops el (fun e he => absurd ⟨e, he⟩ hne)
    have h1 := hn (max n n') (by omega)
    rw [hn' (max n n') (by omega)] at h1
    simp at h1
  · rintro ⟨e, he⟩
    obtain ⟨e', h1, _, n, hn⟩ := evalLoop_raises g hT true ops.length ops (Nat.le_refl _) [el] []
      ⟨e, by simpa using he, .inl rfl⟩
    refine ⟨n, fun m hm => ?_⟩
    have := hn m hm
    rw [reported, hall ops el e' (by simpa using h1)] at this
    simpa using this

/-- C18. Failures other than a missing child escape, strict or not. -/
theorem C18_other_errors_escape {N} (g : Graph N) (hT : ParentsTruthy g) (strict : Bool) (ops : List Op) (el : N)
    (h : ∃ e, .error e ∈ branches g ops el ∧ ¬ ChildMissing e) : ∃ e, Evaluates g strict ops el (.error e) := by
  obtain ⟨e, he, hl⟩ := h
  rw [childMissing_iff, Bool.not_eq_true] at hl
  obtain ⟨e', _, _, n, hn⟩ := evalLoop_raises g hT strict ops.length ops (Nat.le_refl _) [el] []
    ⟨e, by simpa using he, .inr hl⟩
  exact ⟨_, n, fun m hm => by simpa using hn m hm⟩

/-- The result of a lookup is unique. -/
theorem C18_result_unique {N} (g : Graph N) (strict : Bool) (ops : List Op) (el : N) (r r' : Except PyErr (List N))
    (h : Evaluates g strict ops el r) (h' : Evaluates g strict ops el r') : r = r' := by
  obtain ⟨n, hn⟩ := h
  obtain ⟨n', hn'⟩ := h'
  have h1 := hn (max n n') (by omega)
  rw [hn' (max n n') (by omega)] at h1
  simpa using h1.symm

/-- A falsy parent (a Compound or JoinedString without a complete value) is skipped: `..` stays where it is. -/
theorem C18_falsy_parent_skipped : ∃ (g : Graph Bool), g.parent false = some true ∧
    Evaluates g true [.up] false (.ok [false]) :=
  ⟨{ root := fun _ => true, parent := fun b => if b then none else some true, truthy := fun _ => false,
     index := fun _ _ => .error .key, children := fun b => if b then [false] else [] }, rfl, 1, fun m hm => by
    obtain ⟨m, rfl⟩ : ∃ m', m = m' + 1 := ⟨m - 1, by omega⟩
    cases m <;> rfl⟩

/-- a family tree: element `n` has children `2n+1`, `2n+2` called "l" and "r", up to 6 -/
def exGraph : Graph Nat where
  root _ := 0
  parent n := if n = 0 then none else some ((n - 1) / 2)
  truthy _ := true
  index n c := if 2 < n then .error .index else
    if c = some ['l'] then .ok (2 * n + 1) else if c = some ['r'] then .ok (2 * n + 2) else .error .key
  children n := if 2 < n then [] else [2 * n + 1, 2 * n + 2]

example : ParentsTruthy exGraph := fun _ _ _ => rfl
example : branches exGraph [.top, .slice none none none, .name (some ['r'])] 5 = [.ok 4, .ok 6] := by decide
example : branches exGraph [.slice none none none, .name (some ['r'])] 1 = [.error .index, .error .index] := by decide
example : Evaluates exGraph true [.top, .slice none none none, .name (some ['r'])] 5 (.ok [4, 6]) :=
  C18_find_branches exGraph (fun _ _ _ => rfl) true _ 5 (by
    intro e he
    rw [show branches exGraph [.top, .slice none none none, .name (some ['r'])] 5 = [.ok 4, .ok 6] by decide] at he
    simp at he)

/-! ### C19: slices -/

section
variable [Runtime]

/-- what `seg and int(seg) or d` makes of a bound -/
def segVal (d : Option Int) : Option Int → Option Int
  | none => d
  | some i => if i = 0 then d else some i

theorem segOr_spells {s : PStr} {o : Option Int} (h : SpellsOpt s o) (d : Option Int) :
    segOr s d = .ok (segVal d o) := by
  cases o with
  | none => simp [segOr, segVal, show s = [] from h]
  | some i => simp [segOr, segVal, spells_ne_nil h, segInt, pyInt_spells h]

theorem colon_not_in {s : PStr} {o : Option Int} (h : SpellsOpt s o) : ':' ∉ s :=
  spells_not_mem h (by decide) Runtime.colon_not_digit

theorem bracket_not_in {s : PStr} {o : Option Int} (h : SpellsOpt s o) : ']' ∉ s :=
  spells_not_mem h (by decide) Runtime.bracket_not_digit

omit [Runtime] in
theorem nonzero_id {b : Option Int} (h : b ≠ some 0) : nonzero b = b := by
  cases b with
  | none => rfl
  | some i => simp at h; simp [nonzero, h]

/-- C19, `[a:b]`: whatever way `a` and `b` are written (or left out), the path selects `seq[a:b]`, a stop of 0 being taken as left out. -/
theorem C19_slice_zero {sa sb : PStr} {a b : Option Int} (ha : SpellsOpt sa a) (hb : SpellsOpt sb b) :
    ∃ a' b', tokenize ('[' :: (sa ++ ':' :: sb) ++ [']']) = .ok [.slice a' b' none] ∧
      ∀ {α : Type} (xs : List α), pySlice xs a' b' none = pySlice xs a (nonzero b) none := by
  have hs := sliceSpec_two ha hb
  have hn : ']' ∉ sa ++ ':' :: sb := by
    simp; exact ⟨bracket_not_in ha, bracket_not_in hb⟩
  by_cases hnone : a = none ∧ b = none
  · obtain ⟨rfl, rfl⟩ := hnone
    have h1 : sa = [] := ha
    have h2 : sb = [] := hb
    subst h1 h2
    exact ⟨none, none, tokenize_bracket _ (by simp) hn hs _ (by simp [parseSlice]) (by simp) (by simp), fun xs => rfl⟩
  · have hp : parseSlice (sa ++ ':' :: sb) = .ok (.slice (segVal (some 0) a) (nonzero b) none) := by
      have e1 : ¬ (sa ++ ':' :: sb = [':'] ∨ sa ++ ':' :: sb = [':', ':']) := by
        rintro (h | h)
        · have hl : sa.length + sb.length = 0 := by have := congrArg List.length h; simp at this; omega
          have h1 : sa = [] := List.length_eq_zero_iff.1 (by omega)
          have h2 : sb = [] := List.length_eq_zero_iff.1 (by omega)
          apply hnone
          constructor
          · cases a with
            | none => rfl
            | some i => exact absurd h1 (spells_ne_nil ha)
          · cases b with
            | none => rfl
            | some i => exact absurd h2 (spells_ne_nil hb)
        · have hca := colon_not_in ha
          have hcb := colon_not_in hb
          cases sa with
          | nil => simp at h; rw [h] at hcb; simp at hcb
          | cons x sa => simp at h; rw [h.1] at hca; simp at hca
      have e2 : ¬ ':' ∉ sa ++ ':' :: sb := by simp
      have e3 : pySplit [':'] (sa ++ ':' :: sb) = [sa, sb] := by
        have := pySplit_pyJoin ':' [] [sa, sb] (by simp) (by
          intro p hp; simp at hp; rcases hp with rfl | rfl
          · exact colon_not_in ha
          · exact colon_not_in hb)
        simpa [pyJoin] using this
      simp only [parseSlice, e1, e2, if_false, e3, List.getD_cons_zero, List.getD_cons_succ]
      rw [segOr_spells ha, segOr_spells hb]
      simp only [List.length_cons, List.length_nil]
      have : segVal none b = nonzero b := by cases b <;> rfl
      simp [this]
    refine ⟨_, nonzero b, tokenize_bracket _ (by simp) hn hs _ hp (by simp) (by simp), fun xs => ?_⟩
    cases a with
    | none => exact pySlice_zero xs (nonzero b)
    | some i => by_cases hi : i = 0 <;> simp [segVal, hi]

/-- C19, `[a:b:c]`: the path selects `seq[a:b:c]`, a stop or stride of 0 being taken as left out. -/
theorem C19_stride_zero_all {sa sb sc : PStr} {a b c : Option Int} (ha : SpellsOpt sa a) (hb : SpellsOpt sb b) (hc : SpellsOpt sc c) :
    ∃ a' b' c', tokenize ('[' :: (sa ++ ':' :: (sb ++ ':' :: sc)) ++ [']']) = .ok [.slice a' b' c'] ∧
      ∀ {α : Type} (xs : List α), pySlice xs a' b' c' = pySlice xs a (nonzero b) (nonzero c) := by
  have hs := sliceSpec_three ha hb hc
  have hn : ']' ∉ sa ++ ':' :: (sb ++ ':' :: sc) := by
    simp; exact ⟨bracket_not_in ha, bracket_not_in hb, bracket_not_in hc⟩
  have hca := colon_not_in ha
  by_cases hnone : sa = [] ∧ sb = [] ∧ sc = []
  · obtain ⟨rfl, rfl, rfl⟩ := hnone
    have h1 : a = none := by cases a with
      | none => rfl
      | some i => exact absurd rfl (spells_ne_nil ha)
    have h2 : b = none := by cases b with
      | none => rfl
      | some i => exact absurd rfl (spells_ne_nil hb)
    have h3 : c = none := by cases c with
      | none => rfl
      | some i => exact absurd rfl (spells_ne_nil hc)
    subst h1 h2 h3
    exact ⟨none, none, none, tokenize_bracket _ (by simp) hn hs _ (by simp [parseSlice]) (by simp) (by simp), fun xs => rfl⟩
  · have hp : parseSlice (sa ++ ':' :: (sb ++ ':' :: sc)) =
        .ok (.slice a (nonzero b) (some ((nonzero c).getD 1))) := by
      have e1 : ¬ (sa ++ ':' :: (sb ++ ':' :: sc) = [':'] ∨ sa ++ ':' :: (sb ++ ':' :: sc) = [':', ':']) := by
        rintro (h | h)
        · have := congrArg List.length h; simp at this; omega
        · have hl : sa.length + sb.length + sc.length = 0 := by have := congrArg List.length h; simp at this; omega
          exact hnone ⟨List.length_eq_zero_iff.1 (by omega), List.length_eq_zero_iff.1 (by omega), List.length_eq_zero_iff.1 (by omega)⟩
      have e2 : ¬ ':' ∉ sa ++ ':' :: (sb ++ ':' :: sc) := by simp
      have e3 : pySplit [':'] (sa ++ ':' :: (sb ++ ':' :: sc)) = [sa, sb, sc] := by
        have := pySplit_pyJoin ':' [] [sa, sb, sc] (by simp) (by
          intro p hp; simp at hp; rcases hp with rfl | rfl | rfl
          · exact colon_not_in ha
          · exact colon_not_in hb
          · exact colon_not_in hc)
        simpa [pyJoin] using this
      simp only [parseSlice, e1, e2, if_false, e3, List.getD_cons_zero, List.getD_cons_succ]
      rw [segOr_spells ha, segOr_spells hb, segOr_spells hc]
      simp only [List.length_cons, List.length_nil]
      have h2 : segVal none b = nonzero b := by cases b <;> rfl
      have h3 : segVal (some 1) c = some ((nonzero c).getD 1) := by
        cases c with
        | none => rfl
        | some i => by_cases hi : i = 0 <;> simp [segVal, nonzero, hi]
      have h1 : (if sa = [] then none else (segVal (some 0) a)) = a := by
        cases a with
        | none => simp [show sa = [] from ha]
        | some i =>
          simp only [spells_ne_nil ha, if_false, segVal]
          split <;> simp_all
      simp [h2, h3, h1]
    refine ⟨_, _, _, tokenize_bracket _ (by simp) hn hs _ hp (by simp) (by simp), fun xs => ?_⟩
    cases nonzero c <;> rfl

/-- C19, `[a:b]`: the path selects `seq[a:b]`.  Missing: a stop of 0, see `C19_slice_zero`. -/
theorem C19_slice_partial {sa sb : PStr} {a b : Option Int} (ha : SpellsOpt sa a) (hb : SpellsOpt sb b) (h0 : b ≠ some 0) :
    ∃ a' b', tokenize ('[' :: (sa ++ ':' :: sb) ++ [']']) = .ok [.slice a' b' none] ∧
      ∀ {α : Type} (xs : List α), pySlice xs a' b' none = pySlice xs a b none := by
  have := C19_slice_zero ha hb
  rwa [nonzero_id h0] at this

/-- C19, `[a:b:c]`: the path selects `seq[a:b:c]`.  Missing: a stop or stride of 0, see `C19_stride_zero_all`. -/
theorem C19_stride_partial {sa sb sc : PStr} {a b c : Option Int} (ha : SpellsOpt sa a) (hb : SpellsOpt sb b) (hc : SpellsOpt sc c)
    (hb0 : b ≠ some 0) (hc0 : c ≠ some 0) :
    ∃ a' b' c', tokenize ('[' :: (sa ++ ':' :: (sb ++ ':' :: sc)) ++ [']']) = .ok [.slice a' b' c'] ∧
      ∀ {α : Type} (xs : List α), pySlice xs a' b' c' = pySlice xs a b c := by
  have := C19_stride_zero_all ha hb hc
  rwa [nonzero_id hb0, nonzero_id hc0] at this

/-- C19, `[-n]`: selects the `n`-th child from the end, if there is one. -/
theorem C19_negative_index {ds : PStr} {n : Nat} (h : Digits ds n) (hn : 0 < n) :
    ∃ a b, tokenize ('[' :: '-' :: ds ++ [']']) = .ok [.slice a b none] ∧
      ∀ {α : Type} (xs : List α), pySlice xs a b none = if n ≤ xs.length then xs[xs.length - n]?.toList else [] := by
  have hsp : SpellsOpt ('-' :: ds) (some (-(n : Int))) := .inr ⟨ds, n, rfl, h, rfl⟩
  have hc := colon_not_in hsp
  have hp : parseSlice ('-' :: ds) = .ok (.slice (some (-(n : Int))) (if n = 1 then none else some (-(n : Int) + 1)) none) := by
    have e1 : ¬ ('-' :: ds = [':'] ∨ '-' :: ds = [':', ':']) := by simp
    simp only [parseSlice, e1, if_false, hc, not_false_eq_true, if_true]
    simp only [List.head?_cons, ne_eq, not_true_eq_false, if_false, segInt, pyInt_minus h]
    have : (-(n : Int) = -1) ↔ n = 1 := by omega
    simp only [this]
    split <;> rfl
  exact ⟨_, _, tokenize_bracket _ (by simp) (bracket_not_in hsp) (sliceSpec_one hsp) _ hp (by simp) (by simp),
    fun xs => pySlice_last xs n hn⟩

/-- C19, `[n]`: a child lookup by that index (text). -/
theorem C19_index {ds : PStr} {n : Nat} (h : Digits ds n) : tokenize ('[' :: ds ++ [']']) = .ok [.name (some ds)] := by
  have hsp : SpellsOpt ds (some (n : Int)) := .inl ⟨n, h, rfl⟩
  have hc := colon_not_in hsp
  have hp : parseSlice ds = .ok (.name (some ds)) := by
    have e1 : ¬ (ds = [':'] ∨ ds = [':', ':']) := by
      rintro (h | h) <;> rw [h] at hc <;> simp at hc
    have e2 : ds.head? ≠ some '-' := by
      cases hd : ds with
      | nil => simp
      | cons c cs =>
        obtain ⟨d, hd'⟩ := digits_all h.2 c (by simp [hd])
        have := digit_ne hd' Runtime.minus_not_digit
        simp [this]
    simp only [parseSlice, e1, if_false, hc, not_false_eq_true, if_true, e2, ne_eq]
  exact tokenize_bracket _ h.1 (bracket_not_in hsp) (sliceSpec_one hsp) _ hp (by simp) (by simp)

end

section
attribute [local instance] Runtime.ascii

/-- Disagreement with C19: `[1:0]` is taken as `[1:]`; Python's `seq[1:0]` is empty. -/
theorem C19_stop_zero : tokenize "[1:0]".toList = .ok [.slice (some 1) none none] ∧
    pySlice ['a', 'b', 'c'] (some 1) none none = ['b', 'c'] ∧ pySlice ['a', 'b', 'c'] (some 1) (some 0) none = [] := by
  decide

/-- Disagreement with C19: a stride of 0, which Python refuses, is taken as 1. -/
theorem C19_stride_zero : tokenize "[::0]".toList = .ok [.slice none none (some 1)] := by decide

/-- A bracket must be followed by a slash, a bracket or the end of the path, or else it is no bracket but part of names; a newline at the very
end counts as the end, and is a name. -/
theorem C19_final_newline : tokenize "a[3]\n".toList = .ok [.name (some ['a']), .name (some ['3']), .name (some ['\n'])] ∧
    tokenize "a[3]b".toList = .ok [.name (some "a[".toList), .name (some "3]b".toList)] ∧
    tokenize "a[3]\nb".toList = .ok [.name (some "a[".toList), .name (some "3]\nb".toList)] := by decide

/-- A lone minus sign makes compiling the path raise ValueError. -/
theorem C19_minus_raises : tokenize "a[-]".toList = .error .value := by decide

example : SpellsOpt "-007".toList (some (-7)) := .inr ⟨"007".toList, 7, rfl, ⟨by simp, by decide⟩, rfl⟩
example : tokenize "[-2:]".toList = .ok [.slice (some (-2)) none none] ∧
    pySlice ['a', 'b', 'c'] (some (-2)) none none = ['b', 'c'] := by decide
example : tokenize "a[3][::-1]".toList = .ok [.name (some ['a']), .name (some ['3']), .slice none none (some (-1))] := by decide
end

/-! ### C20: simplification -/

/-- C20. Simplifying a path does not change what it finds, provided every named step exists, a named child has the element
it was found on as its parent, and no `..` climbs out of a slice. -/
theorem C20_canonicalize_partial {N} (g : Graph N) (hP : ParentOfChild g) (hR : RootTop g) (ops : List Op) (el : N)
    (hu : upsMatched none ops = true) (hok : ∀ e, .error e ∉ branches g ops el) :
    branches g (canonicalize ops) el = branches g ops el := by
  unfold canonicalize
  by_cases hl : 1 < ops.length
  · simp only [hl, decide_true]
    exact canonLoop_sound g hP hR el ops [] none hu (by intro a op b h; simp at h) (by simp) hok
  · match ops, hl with
    | [], _ => rfl
    | [op], _ => cases op <;> simp [canonLoop]
    | _ :: _ :: _, h => simp at h

/-- C20: a `..` that climbs out of a slice is cancelled against it, and the repetitions are lost. -/
theorem C20_slice_up_differs : canonicalize [.slice none none none, .up] = [] ∧
    branches exGraph [.slice none none none, .up] 0 = [.ok 0, .ok 0] ∧
    branches exGraph (canonicalize [.slice none none none, .up]) 0 = [.ok 0] := by decide

/-- C20: a missing child is not noticed when it is immediately left again. -/
theorem C20_missing_child_unnoticed : canonicalize [.name (some ['x']), .up] = [] ∧
    branches exGraph [.name (some ['x']), .up] 0 = [.error .key] ∧
    branches exGraph (canonicalize [.name (some ['x']), .up]) 0 = [.ok 0] := by decide

theorem exGraph_parent : ParentOfChild exGraph := by
  intro x n c h
  simp only [exGraph] at h ⊢
  split at h
  · cases h
  · split at h
    · simp at h; subst h; simp
    · split at h
      · simp at h; subst h; simp; omega
      · cases h

example : RootTop exGraph := fun _ => rfl
example : canonicalize [.top, .up, .name (some ['l']), .here, .up, .slice none none none, .name (some ['r']), .up, .name (some ['l'])] =
    [.top, .slice none none none, .name (some ['l'])] := by decide
example : upsMatched none [.top, .up, .name (some ['l']), .here, .up, .slice none none none, .name (some ['r']), .up, .name (some ['l'])] = true := by
  decide
example : branches exGraph [.top, .up, .name (some ['l']), .here, .up, .slice none none none, .name (some ['r']), .up, .name (some ['l'])] 5 =
    [.ok 3, .ok 5] := by decide

/-! ### C21: the cache -/

section
variable [Runtime]

/-- C21. As long as at most 1024 different paths are ever used, every lookup returns what compiling the path anew would
give, whatever was looked up before. -/
theorem C21_cache_transparent_partial (l : List PStr) (hl : l.length ≤ 1024) (ts : List PStr) (ht : ∀ t ∈ ts, t ∈ l) :
    (lookups [] ts).2 = ts.map compiledAnew := by
  suffices H : ∀ (ts : List PStr) (cache), CacheOk l cache → (∀ t ∈ ts, t ∈ l) → (lookups cache ts).2 = ts.map compiledAnew from
    H ts [] ⟨by simp, by simp, by simp⟩ ht
  intro ts
  induction ts with
  | nil => intro _ _ _; rfl
  | cons t ts ih =>
    intro cache hc ht
    have := pathexpr_ok hl hc (ht t (by simp))
    simp only [lookups, List.map_cons, this.1, ih _ this.2 (fun x hx => ht x (by simp [hx]))]

/-- C21: anything but the builtin function is what compiling anew gives, in every history. -/
theorem C21_never_stale (ts : List PStr) (i : Nat) (t : PStr) (r : Except PyErr Compiled) (ht : ts[i]? = some t)
    (hr : (lookups [] ts).2[i]? = some r) (hb : r ≠ .ok .builtin) : r = compiledAnew t := by
  suffices H : ∀ (ts : List PStr) (cache) (i : Nat), (∀ t c, (t, c) ∈ cache → compiledAnew t = .ok c) → ts[i]? = some t →
      (lookups cache ts).2[i]? = some r → r = compiledAnew t from H ts [] i (by simp) ht hr
  intro ts
  induction ts with
  | nil => intro _ i _ h; simp at h
  | cons x ts ih =>
    intro cache i hc ht hr
    cases i with
    | zero =>
      simp at ht; subst ht
      simp only [lookups, List.getElem?_cons_zero, Option.some.injEq] at hr
      unfold pathexpr at hr
      cases hl : cache.lookup x with
      | some c => simp [hl] at hr; rw [← hr]; exact (hc x c (lookup_mem hl)).symm
      | none =>
        simp only [hl] at hr
        cases htk : tokenize x with
        | error e => simp [htk] at hr; rw [← hr]; simp [compiledAnew, htk]
        | ok ops =>
          simp only [htk] at hr
          split at hr
          · simp at hr; rw [← hr]; simp [compiledAnew, htk]
          · simp at hr; exact absurd hr.symm hb
    | succ i =>
      simp only [lookups, List.getElem?_cons_succ] at hr ht
      refine ih _ i ?_ ht hr
      intro t c h
      unfold pathexpr at h
      cases hl : cache.lookup x with
      | some c => simp [hl] at h; exact hc t _ h
      | none =>
        simp only [hl] at h
        cases htk : tokenize x with
        | error e => simp [htk] at h; exact hc t _ h
        | ok ops =>
          simp only [htk] at h
          split at h
          · simp at h
            rcases h with h | ⟨rfl, rfl⟩
            · exact hc t c h
            · simp [compiledAnew, htk]
          · exact hc t c h

theorem tokenize_decimal (i : Nat) : tokenize (decimal i) = .ok [.name (some (decimal i))] := by
  have hne := decimal_ne_nil i
  have : escape (decimal i) = decimal i := C17_plain_names _ fun c hc => by
    obtain ⟨d, hd, rfl⟩ := decimal_mem hc
    clear hc
    revert d; decide
  have h := C17_relative_path [decimal i] hne
  simpa [slashed, this] using h

theorem decimal_inj {i j : Nat} (h : decimal i = decimal j) : i = j := by
  have := digitsAcc_decimal i
  rw [h, digitsAcc_decimal] at this
  simpa using this.symm

theorem lookups_append (cache) (a b : List PStr) :
    lookups cache (a ++ b) = ((lookups (lookups cache a).1 b).1, (lookups cache a).2 ++ (lookups (lookups cache a).1 b).2) := by
  induction a generalizing cache with
  | nil => rfl
  | cons x a ih => simp [lookups, ih]

theorem lookups_fill (n : Nat) (hn : n ≤ 1024) : (lookups [] ((List.range n).map decimal)).1.length = n ∧
    ∀ i, n ≤ i → (lookups [] ((List.range n).map decimal)).1.lookup (decimal i) = none := by
  induction n with
  | zero => simp [lookups]
  | succ n ih =>
    obtain ⟨h1, h2⟩ := ih (by omega)
    rw [List.range_succ, List.map_append, lookups_append]
    simp only [List.map_cons, List.map_nil, lookups]
    have hp : (pathexpr (lookups [] ((List.range n).map decimal)).1 (decimal n)).1 =
        (lookups [] ((List.range n).map decimal)).1 ++ [(decimal n, .expr (decimal n) [.name (some (decimal n))])] := by
      unfold pathexpr
      simp only [h2 n (Nat.le_refl _), tokenize_decimal]
      rw [if_pos (by rw [h1]; simp [maxCache]; omega)]
    rw [hp]
    refine ⟨by simp [h1], fun i hi => ?_⟩
    have hne : (decimal i == decimal n) = false := by
      simp; intro h; have := decimal_inj h; omega
    rw [List.lookup_append, h2 i (by omega)]
    simp [List.lookup_cons, hne]

theorem pathexpr_full {cache : List (PStr × Compiled)} {t : PStr} {ops : List Op} (h1 : 1024 ≤ cache.length)
    (h2 : cache.lookup t = none) (h3 : tokenize t = .ok ops) : (pathexpr cache t).2 = .ok .builtin := by
  unfold pathexpr
  simp only [h2, h3]
  rw [if_neg (by simp [maxCache]; omega)]

theorem lookups_length (cache) (ts : List PStr) : (lookups cache ts).2.length = ts.length := by
  induction ts generalizing cache with
  | nil => rfl
  | cons x ts ih => simp [lookups, ih]

theorem lookups_overflow (n : Nat) (hn : n = 1024) :
    (lookups [] ((List.range (n + 1)).map decimal)).2[n]? = some (.ok .builtin) := by
  obtain ⟨h1, h2⟩ := lookups_fill n (by omega)
  rw [List.range_succ, List.map_append, lookups_append, List.getElem?_append_right (by rw [lookups_length]; simp), lookups_length]
  simp only [List.map_cons, List.map_nil, lookups, List.length_map, List.length_range, Nat.sub_self, List.getElem?_cons_zero]
  rw [pathexpr_full (by rw [h1]; omega) (h2 n (Nat.le_refl _)) (tokenize_decimal n)]

/-- Disagreement with C21: once 1024 paths are cached, any other path yields the builtin function `compile` instead of a
compiled expression; there is a history that gets there. -/
theorem C21_full_cache_breaks :
    (∀ cache t ops, 1024 ≤ cache.length → cache.lookup t = none → tokenize t = .ok ops → (pathexpr cache t).2 = .ok .builtin) ∧
    (lookups [] ((List.range 1025).map decimal)).2[1024]? = some (.ok .builtin) :=
  ⟨fun _ _ _ h1 h2 h3 => pathexpr_full h1 h2 h3, lookups_overflow 1024 rfl⟩

end

section
attribute [local instance] Runtime.ascii
example : (lookups [] ["a".toList, "b/..".toList, "a".toList]).2 =
    [.ok (.expr "a".toList [.name (some "a".toList)]), .ok (.expr "b/..".toList []), .ok (.expr "a".toList [.name (some "a".toList)])] := by
  decide
end

/-! ### C22: find(single=True) -/

/-- C22. `find(..., single=True)` on the matches: nothing found gives None; a single match is returned; several matches
raise LookupError when strict, and otherwise one of them is returned. -/
theorem C22_single {N} (strict : Bool) (matched : List N) :
    (matched = [] → findSingle strict matched = .ok none) ∧
    (∀ x, matched = [x] → findSingle strict matched = .ok (some x)) ∧
    (1 < matched.length → strict = true → findSingle strict matched = .error .lookup) ∧
    (1 < matched.length → strict = false → ∃ x ∈ matched, findSingle strict matched = .ok (some x)) := by
  refine ⟨?_, ?_, ?_, ?_⟩
  · rintro rfl; rfl
  · rintro x rfl; simp [findSingle]
  · rintro h rfl
    match matched, h with
    | x :: y :: l, _ => simp [findSingle]
  · rintro h rfl
    match matched, h with
    | x :: y :: l, _ => exact ⟨x, by simp, by simp [findSingle]⟩

/-- C22: it raises only in that one case. -/
theorem C22_raises_iff {N} (strict : Bool) (matched : List N) :
    (∃ e, findSingle strict matched = .error e) ↔ strict = true ∧ 1 < matched.length := by
  cases matched with
  | nil => simp [findSingle]
  | cons x l => cases l <;> cases strict <;> simp [findSingle]

example : findSingle true [1, 2] = .error .lookup ∧ findSingle false [1, 2] = .ok (some 1) ∧ findSingle true [7] = .ok (some 7) := by
  decide

end Flatland
