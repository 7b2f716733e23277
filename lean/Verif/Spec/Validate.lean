import Verif.Model.Validate
/-! Specifications for validation. -/
namespace Flatland.Spec
open Flatland

variable {I D C : Type}

/-- validators do not assign `valid` of any element -/
def FlagsUntouched (env : VEnv I D) : Prop :=
  ∀ i st, (env.down i st).1.flag = st.flag ∧ (env.up i st).1.flag = st.flag

/-- validators do not change which elements are children of which -/
def StaticKids (env : VEnv I D) (kids : I → List I) : Prop := ∀ st i, env.children st i = kids i

/-- the validators an element of the class runs -/
def VClass.runs (c : VClass I D) (fn : Validator I D) : Prop := (∃ vs, c.downList = some vs ∧ fn ∈ vs) ∨ ∃ vs, c.upList = some vs ∧ fn ∈ vs

/-- `x` is the root or a direct or indirect child of it -/
inductive Within (kids : I → List I) (root : I) : I → Prop
  | root : Within kids root root
  | child {y x : I} : Within kids root y → x ∈ kids y → Within kids root x

/-- results on the way down after which nothing below the element is looked at -/
def SkipsBelow (v : Verdict) : Prop := v = .skipAll ∨ v = .skipAllFalse

/-- results that count as valid -/
def Good (v : Verdict) : Prop := v = .unevaluated ∨ v = .yes ∨ v = .skipAll

instance : DecidablePred Good := fun v => by unfold Good; infer_instance

/-- `x` can be reached from the root through elements none of which returned SkipAll or SkipAllFalse (`downs`: element and result) -/
inductive Open (kids : I → List I) (downs : List (I × Verdict)) (root : I) : I → Prop
  | root : Open kids downs root root
  | child {y x : I} {v : Verdict} : Open kids downs root y → (y, v) ∈ downs → ¬ SkipsBelow v → x ∈ kids y → Open kids downs root x

/-- `x` is a direct or indirect child of `y` -/
inductive Below (kids : I → List I) (y : I) : I → Prop
  | child {x : I} : x ∈ kids y → Below kids y x
  | deeper {z x : I} : Below kids y z → x ∈ kids z → Below kids y x

/-- the elements form a tree: no element has two parents, and the root has none -/
def IsTree (kids : I → List I) (root : I) : Prop :=
  (∀ p, root ∉ kids p) ∧ ∀ p q x, x ∈ kids p → x ∈ kids q → p = q

/-- finitely many elements: a list of elements containing the root and the children of its elements -/
def Finite (kids : I → List I) (root : I) : Prop := ∃ U : List I, root ∈ U ∧ ∀ i ∈ U, ∀ x ∈ kids i, x ∈ U

/-- Deterministic validators that do not modify the data: `view` is the part of the data that matters (it may leave out error and warning
lists); results and children depend on it alone and it does not change. -/
structure Deterministic (env : VEnv I D) (view : D → C) : Prop where
  flags : FlagsUntouched env
  children : ∀ st st' i, view st.data = view st'.data → env.children st i = env.children st' i
  down : ∀ st st' i, view st.data = view st'.data → (env.down i st).2 = (env.down i st').2
  up : ∀ st st' i, view st.data = view st'.data → (env.up i st).2 = (env.up i st').2
  keepsDown : ∀ st i, view (env.down i st).1.data = view st.data
  keepsUp : ∀ st i, view (env.up i st).1.data = view st.data

/-- the flag an element has after the result `d` on the way down -/
def resultFlag (d : Verdict) : Flag := if d = .unevaluated then .unevaluated else if Good d then .yes else .no

/-- the flag an element has after the results `d` on the way down and `u` on the way up -/
def finalFlag (d u : Verdict) : Flag :=
  if ¬ Good d then .no
  else if u ≠ .unevaluated then (if Good u then .yes else .no)
  else if d = .unevaluated then .unevaluated else .yes

/-- a result after which the next validator runs -/
def continues (r : VResult) : Prop := r = .truthy

/-- a result that makes the element valid -/
def accepts (r : VResult) : Prop := r = .truthy ∨ r = .skip ∨ r = .skipAll

end Flatland.Spec
