import Verif.Proofs.Tidying4
import Verif.Props.Numbers
import Verif.Props.TreeRules
/-! Validators that look at their own element only; validating twice; what the validators of the package do. -/
namespace Flatland
open Flatland.Spec

/-! ### changing one scalar -/

theorem changedAt_frame (t : Elem) (p : Pos) (s : Option ScalarState) : OtherData t (changedAt t p s) := by
  cases s with
  | none => exact ⟨stateAt t, (withStates_self t).symm⟩
  | some s => exact ⟨_, rfl⟩

theorem sameFrame_trans {a b c : Elem} (h : OtherData a b) (h' : OtherData b c) : OtherData a c := by
  obtain ⟨d, rfl⟩ := h
  obtain ⟨d', rfl⟩ := h'
  exact ⟨d', withStates_twice a d d'⟩

theorem sameFrame_refl (a : Elem) : OtherData a a := ⟨stateAt a, (withStates_self a).symm⟩

theorem sameFrame_get {a b : Elem} (h : OtherData a b) {p : Pos} {n : Option PStr} {st : ScalarState} (hp : elemAt a p = some (.scalar n st)) :
    elemAt b p = some (.scalar n (stateAt b p)) := by
  obtain ⟨d, rfl⟩ := h
  rw [elemAt_withStates, hp, stateAt_withStates a d hp]
  simp [withStates]

theorem sameFrame_scalar {a b : Elem} (h : OtherData a b) {p : Pos} {n : Option PStr} {st : ScalarState} (hp : elemAt b p = some (.scalar n st)) :
    elemAt a p = some (.scalar n (stateAt a p)) := by
  obtain ⟨d, rfl⟩ := h
  obtain ⟨s', hs⟩ := withStates_scalar hp
  rw [hs, stateAt_scalar hs]

/-- forms with the same frame and the same states are the same -/
theorem sameFrame_eq {a b : Elem} (h : OtherData a b) (hs : ∀ p n st, elemAt a p = some (.scalar n st) → stateAt b p = st) : b = a := by
  obtain ⟨d, rfl⟩ := h
  have : withStates a d = withStates a (stateAt a) := by
    apply withStates_congr
    intro q n s hq
    rw [stateAt_scalar hq, ← hs q n s hq, stateAt_withStates a d hq]
  rw [this, withStates_self]

theorem changedAt_same {t : Elem} {p : Pos} {n : Option PStr} {st : ScalarState} (h : elemAt t p = some (.scalar n st)) (s : Option ScalarState) :
    elemAt (changedAt t p s) p = some (.scalar n (s.getD st)) := by
  cases s with
  | none => simpa [changedAt] using h
  | some s => rw [changedAt, elemAt_withStates, h]; simp [withStates]

theorem changedAt_other (t : Elem) (p : Pos) (s : Option ScalarState) {q : Pos} {n : Option PStr} {st : ScalarState} (h : elemAt t q = some (.scalar n st))
    (hq : q ≠ p) : elemAt (changedAt t p s) q = some (.scalar n st) := by
  cases s with
  | none => exact h
  | some s => rw [changedAt, elemAt_withStates, h]; simp [withStates, hq, stateAt_scalar h]

section
variable [Runtime]

theorem inTurn_frame {p : Pos} {t t' : Elem} {rs : List ActRule} {ok : Bool} {text : Option PStr} (h : InTurn p t rs t' ok text) : OtherData t t' := by
  induction h with
  | passed => exact sameFrame_refl _
  | next _ _ ih => exact sameFrame_trans (changedAt_frame _ _ _) ih
  | refused _ => exact changedAt_frame _ _ _
  | noted _ _ => exact changedAt_frame _ _ _

theorem inTurn_other {p : Pos} {t t' : Elem} {rs : List ActRule} {ok : Bool} {text : Option PStr} (h : InTurn p t rs t' ok text) {q : Pos} (hq : q ≠ p)
    {n : Option PStr} {st : ScalarState} (hs : elemAt t q = some (.scalar n st)) : elemAt t' q = some (.scalar n st) := by
  induction h with
  | passed => exact hs
  | next _ _ ih => exact ih (changedAt_other _ _ _ hs hq)
  | refused _ => exact changedAt_other _ _ _ hs hq
  | noted _ _ => exact changedAt_other _ _ _ hs hq

theorem judgedBy_frame {c : ActRules} {rs : List ActRule} {t t' : Elem} {p : Pos} {ok : Bool} {text : Option PStr} (h : JudgedBy c rs t p t' ok text) :
    OtherData t t' := by
  cases h with
  | excused => exact sameFrame_refl _
  | given => exact sameFrame_refl _
  | inTurn _ _ _ h => exact inTurn_frame h

/-! ### own data only -/

theorem inTurn_own {p : Pos} {t t' : Elem} {rs : List ActRule} {ok : Bool} {text : Option PStr} (h : InTurn p t rs t' ok text)
    {fs : List (ScalarState → ScalarState × Except PyErr Answer)} (hw : WorkOn rs fs) {n : Option PStr} {st : ScalarState}
    (hs : elemAt t p = some (.scalar n st)) : OwnTurn fs st (stateAt t' p) ok := by
  induction h generalizing fs st with
  | passed => cases hw; rw [stateAt_scalar hs]; exact .passed
  | next ha _ ih =>
    cases hw with
    | cons h1 h2 =>
      obtain ⟨g1, g2⟩ := h1 _ _ _ _ hs
      rw [ha] at g1 g2
      exact .next (Prod.ext g1.symm g2.symm) (ih h2 (changedAt_same hs _))
  | refused ha =>
    cases hw with
    | cons h1 h2 =>
      obtain ⟨g1, g2⟩ := h1 _ _ _ _ hs
      rw [ha] at g1 g2
      rw [stateAt_scalar (changedAt_same hs _)]
      exact .failed (Prod.ext g1.symm g2.symm) (by simp)
  | noted ha _ =>
    cases hw with
    | cons h1 h2 =>
      obtain ⟨g1, g2⟩ := h1 _ _ _ _ hs
      rw [ha] at g1 g2
      rw [stateAt_scalar (changedAt_same hs _)]
      exact .failed (Prod.ext g1.symm g2.symm) (by simp)

omit [Runtime] in
theorem workOn_nil {rs : List ActRule} {fs : List (ScalarState → ScalarState × Except PyErr Answer)} (h : WorkOn rs fs) : rs = [] ↔ fs = [] := by
  cases h <;> simp

theorem judgedBy_own {c : ActRules} {p : Pos} {t t' : Elem} {rs : List ActRule} {ok : Bool} {text : Option PStr} (h : JudgedBy c rs t p t' ok text)
    {fs : List (ScalarState → ScalarState × Except PyErr Answer)} (hw : WorkOn rs fs) {n : Option PStr} {st : ScalarState}
    (hs : elemAt t p = some (.scalar n st)) : OwnJudged c fs st (stateAt t' p) ok := by
  cases h with
  | excused hk hx =>
    rw [hs] at hk; cases hk
    rw [stateAt_scalar hs]
    exact .excused hx.1 hx.2
  | given hk hx hr hok =>
    rw [hs] at hk; cases hk
    rw [stateAt_scalar hs]
    exact .given hx ((workOn_nil hw).1 hr) hok
  | inTurn hk hx hr h =>
    rw [hs] at hk; cases hk
    exact .inTurn hx (fun h => hr ((workOn_nil hw).2 h)) (inTurn_own h hw hs)

omit [Runtime] in
theorem ownTurn_unique {fs : List (ScalarState → ScalarState × Except PyErr Answer)} {st a b : ScalarState} {x y : Bool} (h : OwnTurn fs st a x)
    (h' : OwnTurn fs st b y) : a = b ∧ x = y := by
  induction h generalizing b y with
  | passed => cases h'; exact ⟨rfl, rfl⟩
  | next h1 _ ih =>
    cases h' with
    | next g1 g2 => rw [h1] at g1; cases g1; exact ih g2
    | failed g1 g2 => rw [h1] at g1; cases g1; exact absurd rfl g2
  | failed h1 h2 =>
    cases h' with
    | next g1 g2 => rw [h1] at g1; cases g1; exact absurd rfl h2
    | failed g1 g2 => rw [h1] at g1; cases g1; exact ⟨rfl, rfl⟩

omit [Runtime] in
theorem bool_eq_of_iff {x y : Bool} {P : Prop} (h : x = true ↔ P) (h' : y = true ↔ P) : x = y := by
  cases x <;> cases y <;> grind

theorem ownJudged_unique {c : ActRules} {fs : List (ScalarState → ScalarState × Except PyErr Answer)} {st a b : ScalarState} {x y : Bool}
    (h : OwnJudged c fs st a x) (h' : OwnJudged c fs st b y) : a = b ∧ x = y := by
  cases h with
  | excused h1 h2 =>
    cases h' with
    | excused => exact ⟨rfl, rfl⟩
    | given g1 => exact absurd ⟨h1, h2⟩ g1
    | inTurn g1 => exact absurd ⟨h1, h2⟩ g1
  | given h1 h2 h3 =>
    cases h' with
    | excused g1 g2 => exact absurd ⟨g1, g2⟩ h1
    | given g1 g2 g3 => exact ⟨rfl, bool_eq_of_iff h3 g3⟩
    | inTurn g1 g2 => exact absurd h2 g2
  | inTurn h1 h2 h3 =>
    cases h' with
    | excused g1 g2 => exact absurd ⟨g1, g2⟩ h1
    | given g1 g2 g3 => exact absurd g2 h2
    | inTurn g1 g2 g3 => exact ownTurn_unique h3 g3

/-! ### the same list in the same form -/

theorem messageIs_unique {n : Noter} {key : PStr} {a b : Option PStr} (h : MessageIs n key a) (h' : MessageIs n key b) : a = b := by
  cases a with
  | none =>
    obtain ⟨m, h1, h2⟩ := h
    cases b with
    | none => rfl
    | some b => obtain ⟨m', g1, g2, _⟩ := h'; rw [h1] at g1; cases g1; exact absurd h2 g2
  | some a =>
    obtain ⟨m, h1, h2, h3⟩ := h
    cases b with
    | none => obtain ⟨m', g1, g2⟩ := h'; rw [h1] at g1; cases g1; exact absurd g2 h2
    | some b => obtain ⟨m', g1, g2, g3⟩ := h'; rw [h1] at g1; cases g1; rw [h3] at g3; cases g3; rfl

theorem inTurn_unique {p : Pos} {t a b : Elem} {rs : List ActRule} {x y : Bool} {u v : Option PStr} (h : InTurn p t rs a x u) (h' : InTurn p t rs b y v) :
    a = b ∧ x = y ∧ u = v := by
  induction h generalizing b y v with
  | passed => cases h'; exact ⟨rfl, rfl, rfl⟩
  | next h1 _ ih =>
    cases h' with
    | next g1 g2 => rw [h1] at g1; cases g1; exact ih g2
    | refused g1 => rw [h1] at g1; cases g1
    | noted g1 _ => rw [h1] at g1; cases g1
  | refused h1 =>
    cases h' with
    | next g1 g2 => rw [h1] at g1; cases g1
    | refused g1 => rw [h1] at g1; cases g1; exact ⟨rfl, rfl, rfl⟩
    | noted g1 _ => rw [h1] at g1; cases g1
  | noted h1 h2 =>
    cases h' with
    | next g1 g2 => rw [h1] at g1; cases g1
    | refused g1 => rw [h1] at g1; cases g1
    | noted g1 g2 => rw [h1] at g1; cases g1; exact ⟨rfl, rfl, messageIs_unique h2 g2⟩

theorem judgedBy_unique {c : ActRules} {p : Pos} {t a b : Elem} {rs : List ActRule} {x y : Bool} {u v : Option PStr} (h : JudgedBy c rs t p a x u)
    (h' : JudgedBy c rs t p b y v) : a = b ∧ x = y ∧ u = v := by
  cases h with
  | excused h1 h2 =>
    cases h' with
    | excused => exact ⟨rfl, rfl, rfl⟩
    | given g1 g2 => rw [h1] at g1; cases g1; exact absurd h2 g2
    | inTurn g1 g2 => rw [h1] at g1; cases g1; exact absurd h2 g2
  | given h1 h2 h3 h4 =>
    cases h' with
    | excused g1 g2 => rw [h1] at g1; cases g1; exact absurd g2 h2
    | given g1 g2 g3 g4 => rw [h1] at g1; cases g1; exact ⟨rfl, bool_eq_of_iff h4 g4, rfl⟩
    | inTurn g1 g2 g3 => exact absurd h3 g3
  | inTurn h1 h2 h3 h4 =>
    cases h' with
    | excused g1 g2 => rw [h1] at g1; cases g1; exact absurd g2 h2
    | given g1 g2 g3 => exact absurd g3 h3
    | inTurn g1 g2 g3 g4 => exact inTurn_unique h4 g4

theorem inTurn_true {p : Pos} {t a : Elem} {rs : List ActRule} {u : Option PStr} (h : InTurn p t rs a true u) : u = .none := by
  generalize hx : true = x at h
  induction h with
  | passed => rfl
  | next _ _ ih => exact ih hx
  | refused => cases hx
  | noted => cases hx

theorem judgedBy_true {c : ActRules} {p : Pos} {t a : Elem} {rs : List ActRule} {u : Option PStr} (h : JudgedBy c rs t p a true u) : u = .none := by
  cases h with
  | excused => rfl
  | given => rfl
  | inTurn _ _ _ h => exact inTurn_true h

/-! ### the form in between -/

omit [Runtime] in
theorem seenFrom_frame (a b : Elem) (p : Pos) : OtherData a (seenFrom a b p) := ⟨_, rfl⟩

omit [Runtime] in
theorem seenFrom_here {a b : Elem} {p : Pos} {n : Option PStr} {st : ScalarState} (h : elemAt a p = some (.scalar n st)) :
    elemAt (seenFrom a b p) p = some (.scalar n st) := by
  rw [seenFrom, elemAt_withStates, h]
  simp [withStates, earlier_irrefl, stateAt_scalar h]

omit [Runtime] in
theorem seenFrom_earlier {a b : Elem} {p q : Pos} (hq : Earlier q p) {n : Option PStr} {st : ScalarState} (h : elemAt a q = some (.scalar n st)) :
    elemAt (seenFrom a b p) q = some (.scalar n (stateAt b q)) := by
  rw [seenFrom, elemAt_withStates, h]
  simp [withStates, hq]

omit [Runtime] in
theorem isContainer_withStates (k : Elem) (d : Pos → ScalarState) : containerElem (withStates k d) = containerElem k := by
  cases k <;> simp [withStates, containerElem]

omit [Runtime] in
theorem sameFrame_at {a b : Elem} (h : OtherData a b) {p : Pos} {k : Elem} (hk : elemAt a p = some k) :
    ∃ k', elemAt b p = some k' ∧ containerElem k' = containerElem k ∧ OtherData k k' := by
  obtain ⟨d, rfl⟩ := h
  exact ⟨withStates k fun q => d (p ++ q), by rw [elemAt_withStates, hk]; rfl, isContainer_withStates _ _, ⟨_, rfl⟩⟩

omit [Runtime] in
theorem sameFrame_at' {a b : Elem} (h : OtherData a b) {p : Pos} {k' : Elem} (hk : elemAt b p = some k') :
    ∃ k, elemAt a p = some k ∧ containerElem k' = containerElem k ∧ OtherData k k' := by
  obtain ⟨d, rfl⟩ := h
  rw [elemAt_withStates] at hk
  cases ha : elemAt a p with
  | none => rw [ha] at hk; cases hk
  | some k =>
    rw [ha] at hk
    simp only [Option.map_some, Option.some.injEq] at hk
    subst hk
    exact ⟨k, rfl, isContainer_withStates _ _, ⟨_, rfl⟩⟩

end

end Flatland
