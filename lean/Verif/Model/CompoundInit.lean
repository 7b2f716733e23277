import Verif.Model.Py
/-
Model of the once-per-class initialization of Compound classes, flatland/schema/compound.py:13-71 (_MetaCompound.__call__ without class
overrides, _wrap_compound_init), run by any number of threads.

Each step of a thread is one read or write of shared data (the interpreter runs one thread at a time).  What `__compound_init__` does is
arbitrary code of which only this matters: it may instantiate other Compound classes, raise, or end a call of the `__compound_init__`
of a base class.  Not modelled: the path with overrides (compound.py:35-40: it makes and prepares a new class no other thread can
see), calling `__compound_init__` by hand, and code catching an exception within `__compound_init__`.
-/
namespace Flatland

/-- what the code of a `__compound_init__` does [schema/compound.py:101-111, 198-217, client code] -/
inductive InitCode (C : Type)
  /-- anything that does not concern us -/
  | work
  /-- raise an exception -/
  | fail
  /-- instantiate a Compound class -/
  | new (c : C)
  /-- the end of a call of a base class's `__compound_init__`, which is wrapped too: `cls._compound_prepared = True` (compound.py:66-69) -/
  | baseInit

/-- the instructions of a thread [schema/compound.py:41-58] -/
inductive CIns (C : Type)
  /-- `cls.__dict__.get('_compound_prepared')` (compound.py:41) -/
  | check1 (c : C)
  /-- `lock.acquire()` (compound.py:44), then the rest of the call -/
  | acquire (c : C)
  /-- the second look at `_compound_prepared` (compound.py:46) -/
  | check2 (c : C)
  /-- `lock.release()` (compound.py:49) -/
  | release
  /-- `__new__` and `__init__` (compound.py:53-59) -/
  | construct (c : C)
  | work
  | fail
  /-- `fn(cls)` has returned (compound.py:67) -/
  | initDone (c : C)
  /-- `cls._compound_prepared = True` (compound.py:68) -/
  | setPrepared (c : C)
  deriving DecidableEq

/-- what happens [schema/compound.py:41-71, observable events] -/
inductive CEvent (T C : Type)
  | started (t : T) (c : C)
  | done (t : T) (c : C)
  | failed (t : T) (c : C)
  | constructed (t : T) (c : C)
  deriving DecidableEq

/-- the shared flags and the lock (a reentrant one: owner and depth), and for each thread the code to run and the classes still to
be instantiated; and what has happened so far [schema/compound.py:16, 19, 41-58] -/
structure CState (T C : Type) where
  prepared : C → Bool
  lock : Option (T × Nat)
  code : T → List (CIns C)
  todo : T → List C
  log : List (CEvent T C)

variable {T C : Type} [DecidableEq T] [DecidableEq C]

/-- the code of `__compound_init__` of `c` as instructions [schema/compound.py:62-71] -/
def initIns (c : C) : InitCode C → CIns C
  | .work => .work
  | .fail => .fail
  | .new d => .check1 d
  | .baseInit => .setPrepared c

/-- the wrapped `__compound_init__` (compound.py:66-69) -/
def initCode (body : C → List (InitCode C)) (c : C) : List (CIns C) := (body c).map (initIns c) ++ [.initDone c, .setPrepared c]

/-- is it a release? [schema/compound.py:48-49] -/
def CIns.isRelease : CIns C → Bool
  | .release => true
  | _ => false

/-- the initializations that an exception ends [schema/compound.py:45-49] -/
def failures (t : T) : List (CIns C) → List (CEvent T C)
  | [] => []
  | .setPrepared c :: k => .failed t c :: failures t k
  | _ :: k => failures t k

/-- change the code of a thread [schema/compound.py:41-58] -/
def CState.go (s : CState T C) (t : T) (k : List (CIns C)) : CState T C := { s with code := fun t' => if t' = t then k else s.code t' }

/-- add to the log [observation only, no code] -/
def CState.note (s : CState T C) (es : List (CEvent T C)) : CState T C := { s with log := s.log ++ es }

/-- one step of a thread: `type.__call__` for each class it is to instantiate.  A thread that waits for the lock stays where it is. [schema/compound.py:41-59] -/
def cstep (body : C → List (InitCode C)) (s : CState T C) (t : T) : CState T C :=
  match s.code t with
  | [] => match s.todo t with
    | [] => s
    | c :: rest => { s.go t [.check1 c] with todo := fun t' => if t' = t then rest else s.todo t' }
  | .check1 c :: k => if s.prepared c then s.go t (.construct c :: k) else s.go t (.acquire c :: k)
  | .acquire c :: k => match s.lock with
    | none => { s.go t (.check2 c :: .release :: .construct c :: k) with lock := some (t, 1) }
    | some (o, n) => if o = t then { s.go t (.check2 c :: .release :: .construct c :: k) with lock := some (t, n + 1) } else s
  | .check2 c :: k => if s.prepared c then s.go t k else (s.go t (initCode body c ++ k)).note [.started t c]
  | .release :: k => { s.go t k with lock := match s.lock with
      | some (o, n) => if n ≤ 1 then none else some (o, n - 1)
      | none => none }
  | .construct c :: k => (s.go t k).note [.constructed t c]
  | .work :: k => s.go t k
  | .fail :: k => (s.go t (k.filter CIns.isRelease)).note (failures t k)
  | .initDone c :: k => (s.go t k).note [.done t c]
  | .setPrepared c :: k => { s.go t k with prepared := fun c' => if c' = c then true else s.prepared c' }

/-- a schedule: which thread runs next [schema/compound.py:25-59 under any schedule] -/
def crun (body : C → List (InitCode C)) : CState T C → List T → CState T C
  | s, [] => s
  | s, t :: ts => crun body (cstep body s t) ts

/-- the start: nothing prepared, the lock free, each thread about to instantiate some classes [schema/compound.py:16-19] -/
def cstart (todo : T → List C) : CState T C := ⟨fun _ => false, none, fun _ => [], todo, []⟩

end Flatland
