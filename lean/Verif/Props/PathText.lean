import Verif.Proofs.PathText
/-
C17, C18, C20 for paths as they are written.
-/
namespace Flatland
open Spec

section
variable [Runtime]

/-- **C18.** A path that says certain moves compiles, and the result is the simplified form of operations that carry out these moves one by one. -/
theorem C18_path_text (text : PStr) (ms : List Move) (h : PathSays text ms) :
    ∃ ops r, DoesAll ms ops ∧ tokenize text = .ok r ∧ Simplifies ops r := tokenize_says h

/-- **C18.** `find` with a path without `.` and `..`: the elements found are those the moves lead to, in order; and with `strict` no move fails. -/
theorem C18_find_text {N} (g : Graph N) (hT : ParentsTruthy g) (strict : Bool) (text : PStr) (ms : List Move) (h : PathSays text ms)
    (hd : ∀ m ∈ ms, m ≠ .here ∧ m ≠ .up) (el : N) (hf : ∀ e, .error e ∈ walk g ms el → strict = false ∧ ChildMissing e) :
    ∃ ops, tokenize text = .ok ops ∧ Evaluates g strict ops el (.ok (reached (walk g ms el))) := by
  obtain ⟨ops, r, h1, h2, h3⟩ := tokenize_says h
  have hr : r = ops := simplifies_unique h3 (plain_simplifies (doesAll_plain h1 hd))
  subst hr
  refine ⟨_, h2, ?_⟩
  rw [← walk_branches g h1]
  refine C18_find_branches g hT strict _ el ?_
  rw [walk_branches g h1]
  exact hf

/-- **C18, C20.** `find` with any path: the same, if named children have their element as parent, no move fails, and no `..` climbs out of a slice. -/
theorem C18_find_dots {N} (g : Graph N) (hT : ParentsTruthy g) (hP : ParentOfChild g) (hR : RootTop g) (strict : Bool) (text : PStr)
    (ms : List Move) (h : PathSays text ms) (hu : movesMatched none ms = true) (el : N) (hf : ∀ e, .error e ∉ walk g ms el) :
    ∃ ops, tokenize text = .ok ops ∧ Evaluates g strict ops el (.ok (reached (walk g ms el))) := by
  obtain ⟨ops, r, h1, h2, h3⟩ := tokenize_says h
  have hr : r = canonicalize ops := simplifies_unique h3 (canonicalize_simplifies ops)
  subst hr
  have hb := walk_branches g h1 el
  have hok : ∀ e, .error e ∉ branches g ops el := by rw [hb]; exact hf
  have hc := C20_canonicalize_partial g hP hR ops el (by rw [← movesMatched_does h1]; exact hu) hok
  refine ⟨_, h2, ?_⟩
  rw [← hb, ← hc]
  exact C18_find_branches g hT strict _ el (fun e he => absurd (hc ▸ he) (hok e))

end

/-- **C20.** Simplification leaves out `.`, cancels steps down and up again, stays at the root, and leaves nothing to simplify. -/
theorem C20_simplified (ops : List Op) : Simplifies ops (canonicalize ops) := canonicalize_simplifies ops

/-- **C20.** The order of simplifications does not matter: there is one simplified form. -/
theorem C20_one_form (ops r r' : List Op) (h : Simplifies ops r) (h' : Simplifies ops r') : r = r' := simplifies_unique h h'

/-- **C20.** Simplifying a path twice is simplifying it once. -/
theorem C20_idempotent (ops : List Op) : canonicalize (canonicalize ops) = canonicalize ops := by
  by_cases h : ops = [.here]
  · subst h; decide
  · exact canon_idem h

section
attribute [local instance] Runtime.ascii

/-- hypotheses of `C18_path_text` are met: a path with all kinds of steps -/
theorem ex_pathSays : PathSays "/foo[x][2]/../b//[-1][1:]/".toList
      [.top, .name (some "foo[x]".toList), .name (some "2".toList), .up, .name (some "b".toList), .name none, .fromEnd 1, .slice (some 1) none none] := by
  refine PathSays.abs (ss := [⟨.plain "foo".toList ["x".toList], [.index "2".toList]⟩, ⟨.up, []⟩, ⟨.name "b".toList, []⟩, ⟨.blank, []⟩,
    ⟨.blank, [.back "1".toList, .slice "1".toList []]⟩, ⟨.blank, []⟩]) ?_
  refine StepsSay.cons (ms := [.name (some "foo[x]".toList)]) (bs := [.name (some "2".toList)]) (by simp) rfl ?_ ?_ ?_
  · refine Head.Says.plain ⟨by simp, by decide⟩ ?_
    intro s hs
    simp at hs; subst hs
    exact ⟨by decide, by decide, .inr ⟨'x', by decide, by decide⟩⟩
  · exact .cons (.index (n := 2) ⟨by simp, by decide⟩) .nil
  refine StepsSay.cons (ms := [.up]) (bs := []) (by simp) rfl .up .nil ?_
  refine StepsSay.cons (ms := [.name (some "b".toList)]) (bs := []) (by simp) rfl (.name (by simp) (by decide)) .nil ?_
  refine StepsSay.blank (by simp) rfl ?_
  refine StepsSay.cons (ms := []) (bs := [.fromEnd 1, .slice (some 1) none none]) (by simp) rfl .blank ?_ ?_
  · refine .cons (.back ⟨by simp, by decide⟩ (by omega)) (.cons (.slice ?_ rfl (by simp)) .nil)
    exact .inl ⟨1, ⟨by simp, by decide⟩, rfl⟩
  · exact StepsSay.last (ms := []) (bs := []) .blank .nil

example : tokenize "/foo[x][2]/../b//[-1][1:]/".toList =
    .ok [.top, .name (some "foo[x]".toList), .name (some "b".toList), .name none, .slice (some (-1)) none none, .slice (some 1) none none] := by
  decide +kernel

/-- words in brackets after a slice -/
example : PathSays "a[1:][x][y]".toList [.name (some ['a']), .slice (some 1) none none, .name (some "[x][y]".toList)] := by
  have hx : ∀ c : Char, c = 'x' ∨ c = 'y' → NamePart [c] := by
    rintro c (rfl | rfl) <;> exact ⟨by decide, by decide, .inr ⟨_, List.mem_singleton_self _, by decide⟩⟩
  refine PathSays.rel (s := ⟨.name ['a'], [.slice ['1'] [], .word ['x'], .word ['y']]⟩) (ss := []) rfl ?_
  refine .last (ms := [.name (some ['a'])]) (.name (by simp) (by decide)) ?_
  refine .words (ws := [['y']]) (bs := []) (.slice (.inl ⟨1, ⟨by simp, by decide⟩, rfl⟩) rfl (by simp)) trivial (hx _ (.inl rfl)) ?_ .nil
  intro s hs
  simp at hs; subst hs
  exact hx _ (.inr rfl)

/-- hypotheses of `C18_find_text` are met -/
example : ∃ ops, tokenize "l/r".toList = .ok ops ∧ Evaluates exGraph true ops 0 (.ok [4]) := by
  refine C18_find_text exGraph (fun _ _ _ => rfl) true "l/r".toList [.name (some ['l']), .name (some ['r'])] ?_ (by simp) 0 ?_
  · refine PathSays.rel (s := ⟨.name ['l'], []⟩) (ss := [⟨.name ['r'], []⟩]) rfl ?_
    exact .cons (ms := [.name (some ['l'])]) (bs := []) (by simp) rfl (.name (by simp) (by decide)) .nil
      (.last (ms := [.name (some ['r'])]) (bs := []) (.name (by simp) (by decide)) .nil)
  · intro e he
    rw [show walk exGraph [.name (some ['l']), .name (some ['r'])] 0 = [.ok 4] by rfl] at he
    simp at he

end

end Flatland
