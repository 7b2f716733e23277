import Verif.Model.RefChain
import Verif.Props.Refs
/-! C53: Refs to Refs. -/
namespace Flatland
open Spec

namespace Spec
/-- What a Ref to a Ref to … may write: everything if all of them are writable, else what the first one that is not says. -/
def writableThrough (ws : List Writable) : Writable := (ws.find? fun w => w ≠ .yes).getD .yes
end Spec

section
variable [Runtime]

omit [Runtime] in
theorem writableThrough_yes (ws : List Writable) : writableThrough (.yes :: ws) = writableThrough ws := rfl

omit [Runtime] in
theorem chainSetValue_eq (f : ChainForm) (n : Nat) (v : PyVal) (ws : List Writable) (h : ws ≠ []) :
    chainSetValue f n v ws = chainSetValue f n v [writableThrough ws] := by
  induction ws with
  | nil => exact absurd rfl h
  | cons w ws ih =>
    cases w with
    | ignore => rfl
    | no => rfl
    | yes =>
      rw [writableThrough_yes]
      cases ws with
      | nil => rfl
      | cons w' ws => exact ih (by simp)

omit [Runtime] in
theorem chainSetU_eq (f : ChainForm) (n : Nat) (u : PStr) (ws : List Writable) (h : ws ≠ []) :
    chainSetU f n u ws = chainSetU f n u [writableThrough ws] := by
  induction ws with
  | nil => exact absurd rfl h
  | cons w ws ih =>
    cases w with
    | ignore => rfl
    | no => rfl
    | yes =>
      rw [writableThrough_yes]
      cases ws with
      | nil => rfl
      | cons w' ws => exact ih (by simp)

omit [Runtime] in
theorem chainAdapt_eq (f : ChainForm) (n : Nat) (v : PyVal) (ws : List Writable) : chainAdapt f n v ws = (f.types n).adapt v := by
  induction ws with
  | nil => rfl
  | cons w ws ih => exact ih

omit [Runtime] in
theorem chainSerialize_eq (f : ChainForm) (n : Nat) (v : PyVal) (ws : List Writable) : chainSerialize f n v ws = (f.types n).serialize v := by
  induction ws with
  | nil => rfl
  | cons w ws ih => exact ih

omit [Runtime] in
/-- **C53 (chains).** A Ref to a Ref to … shows the value and the text of the scalar at the end. -/
theorem C53_chain_reads (f : ChainForm) (n : Nat) (ws : List Writable) : chainRead f n ws = ((f.cells n).value, (f.cells n).u) := by
  induction ws with
  | nil => rfl
  | cons w ws ih => exact ih

theorem chainSet_eq (f : ChainForm) (n : Nat) (ws : List Writable) (h : ws ≠ []) (v : PyVal) :
    chainSet f n ws v = chainSet f n [writableThrough ws] v := by
  unfold chainSet
  simp only [chainAdapt_eq, chainSerialize_eq, chainSetValue_eq f n _ ws h, fun (f : ChainForm) (u : PStr) => chainSetU_eq f n u ws h]

/-- **C53 (chains).** Setting a Ref to a Ref to … whose Refs are all writable has on the value and the text of the scalar at the end the effect of setting it,
with the same result; no other element changes. -/
theorem C53_chain_writes (f : ChainForm) (n : Nat) (ws : List Writable) (h : ws ≠ []) (hy : ∀ w ∈ ws, w = .yes) (v : PyVal) :
    (chainSet f n ws v).2 = (scalarSet (f.types n) (f.cells n) v).2 ∧
    ((chainSet f n ws v).1.cells n).value = (scalarSet (f.types n) (f.cells n) v).1.value ∧
    ((chainSet f n ws v).1.cells n).u = (scalarSet (f.types n) (f.cells n) v).1.u ∧
    ∀ k, k ≠ n → (chainSet f n ws v).1.cells k = f.cells k := by
  have hw : writableThrough ws = .yes := by
    have : ws.find? (fun w => decide (w ≠ .yes)) = none := by
      rw [List.find?_eq_none]
      intro w hm
      simp [hy w hm]
    unfold writableThrough
    rw [this]
    rfl
  rw [chainSet_eq f n ws h v, hw]
  unfold chainSet
  simp only [chainAdapt_eq, chainSerialize_eq, chainThen, chainSetValue, chainSetU, scalarSet]
  cases ha : (f.types n).adapt v with
  | error e =>
    cases e <;> (simp; try (intro k hk; simp [hk]))
    refine ⟨?_, ?_⟩
    · cases v <;> rfl
    · intro k hk; simp [hk]
  | ok x =>
    cases x <;> simp only [if_pos rfl]
    case none => simp +contextual
    all_goals
      first
      | (generalize hser : (f.types n).serialize _ = s
         cases s <;> simp +contextual)

/-- **C53 (chains).** Otherwise the first Ref that is not writable decides, the ones behind it do not count: if it ignores writes nothing changes and the result is that of setting the scalar; if it
refuses them nothing changes and TypeError is raised, unless adapting the value raises something else. -/
theorem C53_chain_first (f : ChainForm) (n : Nat) (front behind : List Writable) (w : Writable) (hy : ∀ w ∈ front, w = .yes) (hw : w ≠ .yes) (v : PyVal) :
    (chainSet f n (front ++ w :: behind) v).1 = f ∧
    (w = .ignore → (chainSet f n (front ++ w :: behind) v).2 = (scalarSet (f.types n) (f.cells n) v).2) ∧
    (w = .no → (∀ e, (f.types n).adapt v = .error e → e = .adaptation) → (chainSet f n (front ++ w :: behind) v).2 = .error .type) ∧
    (w = .no → ∀ e, (f.types n).adapt v = .error e → e ≠ .adaptation → (chainSet f n (front ++ w :: behind) v).2 = .error e) := by
  have hf : writableThrough (front ++ w :: behind) = w := by
    induction front with
    | nil => simp [writableThrough, hw]
    | cons x xs ih =>
      rw [hy x (by simp)]
      exact ih fun y hm => hy y (by simp [hm])
  rw [chainSet_eq f n _ (by simp) v, hf]
  unfold chainSet
  simp only [chainAdapt_eq, chainSerialize_eq, scalarSet]
  cases w with
  | yes => exact absurd rfl hw
  | ignore =>
    simp only [chainThen, chainSetValue, chainSetU]
    cases ha : (f.types n).adapt v with
    | error e => cases e <;> simp
    | ok x =>
      cases x <;> simp only []
      case none => simp
      all_goals
        generalize hser : (f.types n).serialize _ = s
        cases s <;> simp
  | no =>
    simp only [chainThen, chainSetValue]
    cases ha : (f.types n).adapt v with
    | error e => cases e <;> simp
    | ok x => cases x <;> simp

end

section examples
attribute [local instance] Runtime.ascii

/-- two String fields; a Ref to a Ref to the second -/
def exChainForm : ChainForm := ⟨fun _ => stringType true, fun _ => .fresh⟩

example : writableThrough [.yes, .ignore, .no] = .ignore ∧ writableThrough [.yes, .yes] = .yes := by decide
example : ((chainSet exChainForm 1 [.yes, .yes] (.str ['a'])).1.cells 1).value = .str ['a'] ∧
    ((chainSet exChainForm 1 [.yes, .ignore, .no] (.str ['a'])).1.cells 1).value = .none ∧
    (chainSet exChainForm 1 [.yes, .ignore, .no] (.str ['a'])).2 = .ok true ∧
    (chainSet exChainForm 1 [.yes, .no, .ignore] (.str ['a'])).2 = .error .type := ⟨rfl, rfl, rfl, rfl⟩

end examples
end Flatland
