import Verif.Model.Paths
import Verif.Model.Mappings
/-
Model of the two tables that threads share: the symbols of flatland/util/base.py:390-432 and the compiled path expressions of
flatland/schema/paths.py:36-47.

Each step of a thread is one operation on shared data (the interpreter runs one thread at a time).  Objects are numbered in the order in
which they are made.  Simplified: names and paths are `str` objects and nothing else removes entries from the tables; assertions are on.
-/
namespace Flatland

/-! ### symbols -/

/-- what `symbol` is called with: a text, something else that can be hashed, something that cannot [util/base.py:421-430] -/
inductive SymArg
  | name (n : PStr)
  | other
  | unhashable
  deriving DecidableEq

/-- where a thread is [util/base.py:421-430] -/
inductive SymPc
  /-- between calls -/
  | idle
  /-- `cls._lock.acquire()` -/
  | acquire (a : SymArg)
  /-- `sym = cls.symbols.get(name)` and the test for None -/
  | get (a : SymArg)
  /-- `_symbol(name)` -/
  | make (a : SymArg)
  /-- `cls.symbols[name] = sym` -/
  | put (n : PStr) (o : Nat)
  /-- `symbol._lock.release()`, then the call ends -/
  | release (a : SymArg) (r : Except PyErr Nat)

/-- the table, the names of the symbols made so far, the lock, where the threads are and what they still have to call; and the calls that
have ended [util/base.py:418-419] -/
structure SymState (T : Type) where
  symbols : PyDict PStr Nat
  objs : List PStr
  lock : Option T
  pc : T → SymPc
  todo : T → List SymArg
  log : List (T × SymArg × Except PyErr Nat)

section
variable {T : Type} [DecidableEq T]

/-- the thread goes on there; no code -/
def SymState.go (s : SymState T) (t : T) (pc : SymPc) : SymState T := { s with pc := fun t' => if t' = t then pc else s.pc t' }

/-- One step of a thread, util/base.py:421-430.  A thread that waits for the lock stays where it is. -/
def symStep (s : SymState T) (t : T) : SymState T :=
  match s.pc t with
  | .idle => match s.todo t with
    | [] => s
    | a :: rest => { s.go t (.acquire a) with todo := fun t' => if t' = t then rest else s.todo t' }
  | .acquire a => match s.lock with
    | .none => { s.go t (.get a) with lock := some t }
    | some _ => s
  | .get a => match a with
    | .unhashable => s.go t (.release a (.error .type))
    | .other => s.go t (.make a)
    | .name n => match dictGet s.symbols n with
      | some o => s.go t (.release a (.ok o))
      | .none => s.go t (.make a)
  | .make a => match a with
    | .name n => { s.go t (.put n s.objs.length) with objs := s.objs ++ [n] }
    | _ => s.go t (.release a (.error .assertion))
  | .put n o => { s.go t (.release (.name n) (.ok o)) with symbols := dictPut s.symbols n o }
  | .release a r => { s.go t .idle with lock := .none, log := s.log ++ [(t, a, r)] }

/-- a schedule: which thread runs next [util/base.py:421-430 under any schedule] -/
def symRun : SymState T → List T → SymState T
  | s, [] => s
  | s, t :: ts => symRun (symStep s t) ts

/-- the start: no symbols, the lock free, each thread about to make some calls [util/base.py:418-419] -/
def symStart (todo : T → List SymArg) : SymState T := ⟨[], [], .none, fun _ => .idle, todo, []⟩

/-! ### compiled paths -/

/-- where a thread is [schema/paths.py:36-47] -/
inductive PathPc
  /-- between calls -/
  | idle
  /-- `expression_cache[expr]` -/
  | look (p : PStr)
  /-- `PathExpression(expr)` -/
  | compile (p : PStr)
  /-- `len(expression_cache) < max_cache_size` -/
  | size (p : PStr) (o : Nat)
  /-- `expression_cache.setdefault(expr, compiled)`, then the call ends -/
  | store (p : PStr) (o : Nat)

/-- what `pathexpr` returns: a PathExpression, or the builtin function `compile` [schema/paths.py:40, 44-47] -/
inductive PathResult
  | expr (o : Nat)
  | builtin
  deriving DecidableEq

/-- the cache, the paths of the expressions made so far, where the threads are, what they still have to look up, and the calls that have
ended [schema/paths.py:8-9, 36-47] -/
structure PathState (T : Type) where
  cache : PyDict PStr Nat
  objs : List PStr
  pc : T → PathPc
  todo : T → List PStr
  log : List (T × PStr × Except PyErr PathResult)

/-- the thread goes on there; no code -/
def PathState.go (s : PathState T) (t : T) (pc : PathPc) : PathState T := { s with pc := fun t' => if t' = t then pc else s.pc t' }

/-- the call ends; no code -/
def PathState.finish (s : PathState T) (t : T) (p : PStr) (r : Except PyErr PathResult) : PathState T :=
  { s.go t .idle with log := s.log ++ [(t, p, r)] }

/-- One step of a thread, schema/paths.py:36-47; `max` is `max_cache_size`. -/
def pathStep [Runtime] (max : Nat) (s : PathState T) (t : T) : PathState T :=
  match s.pc t with
  | .idle => match s.todo t with
    | [] => s
    | p :: rest => { s.go t (.look p) with todo := fun t' => if t' = t then rest else s.todo t' }
  | .look p => match dictGet s.cache p with
    | some o => s.finish t p (.ok (.expr o))
    | .none => s.go t (.compile p)
  | .compile p => match tokenize p with
    | .error e => s.finish t p (.error e)
    | .ok _ => { s.go t (.size p s.objs.length) with objs := s.objs ++ [p] }
  | .size p o => if s.cache.length < max then s.go t (.store p o) else s.finish t p (.ok .builtin)
  | .store p o => match dictGet s.cache p with
    | some o' => s.finish t p (.ok (.expr o'))
    | .none => { s.finish t p (.ok (.expr o)) with cache := dictPut s.cache p o }

/-- a schedule: which thread runs next [schema/paths.py:36-47 under any schedule] -/
def pathRun [Runtime] (max : Nat) : PathState T → List T → PathState T
  | s, [] => s
  | s, t :: ts => pathRun max (pathStep max s t) ts

/-- the start: nothing compiled, each thread about to look some paths up [schema/paths.py:8] -/
def pathStart (todo : T → List PStr) : PathState T := ⟨[], [], fun _ => .idle, todo, []⟩

end
end Flatland
