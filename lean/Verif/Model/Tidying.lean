import Verif.Model.FormValidation
import Verif.Model.Numbers
/-!
Validation of a whole form with validators that change the element they validate: NANPphone sets it to the number in the usual
notation, NANPnxx assigns its text, URLCanonicalizer its value.

The elements are identified by their positions in the form.  Validators in the package that change something change the scalar they
validate only, so the data kept for each position are the state of the scalar there and the `errors` list; the form at any time is the
original one with these states.
-/
namespace Flatland
open Flatland.Spec (elemAt Pos)

mutual
/-- the form with the given states of its scalars [no code: elements are objects, changed in place] -/
def withStates : Elem → (Pos → ScalarState) → Elem
  | .scalar n _, d => .scalar n (d [])
  | .dict n ks, d => .dict n (withStatesAll 0 ks d)
  | .list n ks, d => .list n (withStatesAll 0 ks d)
  | .array n ks, d => .array n (withStatesAll 0 ks d)
  | .absent, _ => .absent
/-- see `withStates`; the children from number `i` on [no code] -/
def withStatesAll (i : Nat) : List Elem → (Pos → ScalarState) → List Elem
  | [], _ => []
  | k :: ks, d => withStates k (fun q => d (i :: q)) :: withStatesAll (i + 1) ks d
end

/-- what is kept for an element: the data of a scalar, and the messages [schema/base.py:105-135] -/
structure Cell where
  state : ScalarState
  errors : List PStr

/-- what a validator answers: True; False; or False with `note_error(…, key)` [validation/base.py:37-50, 108-112, validation/number.py:16-25] -/
inductive Answer
  | yes | no
  | note (key : PStr)
  deriving DecidableEq

/-- A validator that may change its own element: looking at the form and the position of the element it gives the new state of the scalar
there, if it changes it, and an answer; and what `note_error` uses. [validation/base.py:13-112] -/
structure ActRule where
  act : Elem → Pos → Option ScalarState × Except PyErr Answer
  noter : Elem → Pos → Noter

/-- the attributes of an element's class that validation reads, as in `FieldRules` [schema/base.py:72-82, schema/containers.py:48-52, schema/scalars.py:51, 213-215, schema/containers.py:1221-1224] -/
structure ActRules where
  optional : Bool := false
  validators : List ActRule := []
  descent : List ActRule := []
  textual : Bool := false
  sparse : Bool := false

/-- what `is_empty` depends on [schema/base.py:764-766, schema/scalars.py:213-215, schema/containers.py:1221-1224] -/
def ActRules.field (c : ActRules) : FieldRules := { optional := c.optional, textual := c.textual, sparse := c.sparse }

/-- the form as it is [no code: the elements themselves] -/
def formNow (e : Elem) (d : Pos → Cell) : Elem := withStates e fun q => (d q).state

/-- `note_error`, or nothing, after the answer [validation/base.py:37-112] -/
def answerNotes [Runtime] (n : Noter) (errors : List PStr) : Except PyErr Answer → List PStr × Except PyErr Bool
  | .error er => (errors, .error er)
  | .ok .yes => (errors, .ok true)
  | .ok .no => (errors, .ok false)
  | .ok (.note key) => runCheck n errors (.ok (some key))

/-- the data with the change of a validator, before messages are noted [validation/string.py:46, validation/number.py:24, validation/network.py:337] -/
def withChange (d : Pos → Cell) (p : Pos) : Option ScalarState → Pos → Cell
  | .none => d
  | some s => fun q => if q = p then { d p with state := s } else d q

/-- `fn(element, state)` [schema/base.py:919, validation/base.py:37-112] -/
def runAct [Runtime] (e : Elem) (p : Pos) (r : ActRule) : Validator Pos (Pos → Cell) := fun st =>
  let a := r.act (formNow e st.data) p
  let d := withChange st.data p a.1
  let out := answerNotes (r.noter (formNow e d) p) (d p).errors a.2
  ({ st with data := fun q => if q = p then { d p with errors := out.1 } else d q }, out.2.map fun b => if b then .truthy else .falseInt)

/-- the class of the element at a position, for `_validate` [schema/scalars.py:51, schema/containers.py:48-50] -/
def actClass [Runtime] (e : Elem) (rules : Pos → ActRules) (p : Pos) : VClass Pos (Pos → Cell) :=
  let container := isContainerElem ((elemAt e p).getD .absent)
  { container := container
    downList := some (((if container then (rules p).descent else (rules p).validators)).map (runAct e p))
    upList := if container then some ((rules p).validators.map (runAct e p)) else .none
    optional := (rules p).optional
    isEmpty := fun d => elemIsEmpty (rules p).field ((elemAt (formNow e d) p).getD .absent) }

/-- the form as `validate()` sees it: the validators change no children [schema/base.py:799-845] -/
def actEnv [Runtime] (e : Elem) (rules : Pos → ActRules) : VEnv Pos (Pos → Cell) :=
  VEnv.ofClasses (fun _ p => childPositions e p) (actClass e rules)

/-- the data before: those of the form, with some messages [schema/base.py:105-135] -/
def cellsOf (e : Elem) (errors : Pos → List PStr) : Pos → Cell :=
  fun p => { state := ((elemAt e p).getD .absent).state, errors := errors p }

/-- what a call of `validate()` did to a form: the form afterwards, the flags and messages, and what was returned or raised [schema/base.py:768-833] -/
structure TidyRun where
  form : Elem
  flag : Pos → Flag
  errors : Pos → List PStr
  result : Except PyErr Bool

/-- `root.validate()`, of a form with the given flags and messages [schema/base.py:768-833] -/
def validateActing [Runtime] (e : Elem) (rules : Pos → ActRules) (fuel : Nat) (flag : Pos → Flag) (errors : Pos → List PStr) : Option TidyRun :=
  (validateTree (actEnv e rules) fuel [] { flag := flag, data := cellsOf e errors }).map fun r =>
    { form := formNow e r.state.data, flag := r.state.flag, errors := fun p => (r.state.data p).errors, result := r.result }

/-! ### the validators of the package -/

/-- what a validator that returns `note_error(…, key)` or else True answers [validation/base.py:37-112] -/
def answerOf : Option PStr → Answer
  | .none => .yes
  | some key => .note key

/-- a validator that changes nothing [validation/base.py:13-112] -/
def FormRule.acting (r : FormRule) : ActRule where
  act e p := (.none, (r.decide e p).map answerOf)
  noter := r.noter

/-- a validator that works on the scalar it validates; anything else is a TypeError, as with a value that is a list or a dict [validation/string.py:23-24, validation/number.py:13-18] -/
def scalarAct (f : ScalarState → ScalarState × Except PyErr Answer) (noter : Elem → Pos → Noter) : ActRule where
  act e p := match elemAt e p with
    | some (.scalar _ st) => (some (f st).1, (f st).2)
    | _ => (.none, .error .type)
  noter := noter

/-- `NANPphone(extensions=…)` on an element of a scalar type [validation/string.py:22-46] -/
def phoneRule [Runtime] (ext : PhoneExt) (t : ScalarType) (noter : Elem → Pos → Noter) : ActRule :=
  scalarAct (fun st => ((nanpPhoneValidate ext t st).1, (nanpPhoneValidate ext t st).2.map answerOf)) noter

/-- `NANPnxx()` [validation/number.py:12-25] -/
def nxxRule (noter : Elem → Pos → Noter) : ActRule :=
  scalarAct (fun st => ((nanpNxx st).1, (nanpNxx st).2.map fun b => if b then .yes else .no)) noter

/-- the assignment `element.value = …` of URLCanonicalizer and its answer; there is none if an exception gets through [validation/network.py:323-338] -/
def canonicalState (st : ScalarState) : Except PyErr (PyVal × Option PStr) → ScalarState × Except PyErr Answer
  | .error er => (st, .error er)
  | .ok (v, .none) => ({ st with value := v }, .ok .yes)
  | .ok (_, some key) => (st, .ok (.note key))

/-- `URLCanonicalizer(discard_parts=…)` with given `urlparse` and `urlunparse` [validation/network.py:323-338] -/
def canonicalRule (discard : List PStr) (parse : PyVal → Except PyErr (List (Option PStr))) (unparse : List (Option PStr) → Except PyErr PyVal)
    (noter : Elem → Pos → Noter) : ActRule :=
  scalarAct (fun st => canonicalState st (urlCanonicalize discard parse unparse st.value)) noter

end Flatland
