import Verif.Model.CompoundInit
/-! Specification of the once-per-class initialization, in terms of what happened. -/
namespace Flatland.Spec
open Flatland

variable {T C : Type} [DecidableEq T] [DecidableEq C]

/-- how often the initialization of `c` has started -/
def starts (c : C) (log : List (CEvent T C)) : Nat := log.countP fun e => match e with | .started _ d => decide (d = c) | _ => false
/-- how often it has been completed -/
def dones (c : C) (log : List (CEvent T C)) : Nat := log.countP fun e => match e with | .done _ d => decide (d = c) | _ => false
/-- how often it has failed -/
def fails (c : C) (log : List (CEvent T C)) : Nat := log.countP fun e => match e with | .failed _ d => decide (d = c) | _ => false

/-- no `__compound_init__` calls that of a base class -/
def NoBaseInit (body : C → List (InitCode C)) : Prop := ∀ c, InitCode.baseInit ∉ body c

/-- no class is instantiated, directly or not, by its own `__compound_init__` -/
def Ranked (body : C → List (InitCode C)) (rank : C → Nat) : Prop := ∀ c d, InitCode.new d ∈ body c → rank d < rank c

/-- no `__compound_init__` raises -/
def NoFail (body : C → List (InitCode C)) : Prop := ∀ c, InitCode.fail ∉ body c

/-- all threads have run to their end -/
def Finished (s : CState T C) : Prop := ∀ t, s.code t = [] ∧ s.todo t = []

end Flatland.Spec
