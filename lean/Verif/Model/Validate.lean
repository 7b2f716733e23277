import Verif.Model.ListOps
/-
Model of validation: flatland/schema/base.py:364-418 (all_valid, all_children), 617-625 (add_error, add_warning), 768-845 (validate,
_validate), 890-929 (validate_element), 218-240 (including_validators) and flatland/schema/containers.py:122-136 (Container._validate).

Elements are identities `I`; `id(element) in seen` compares these.  What validators can read and change is the state: a `valid` flag
for every element and arbitrary further data `D`, including the shape of the tree.  A validator is an arbitrary function on the
state; it returns a result or raises.
Simplifications: signal receivers only record; the truth value of a validator's result can be computed without side effects;
`is_empty` neither raises nor changes anything.
The loop over the queue may fail to terminate when validators keep adding elements, so it takes a number of rounds (`fuel`) and yields `none` when they are used up.
-/
namespace Flatland

variable {I D : Type} [DecidableEq I]

/-- `element.valid`: Unevaluated (base.py:45-52), True or False -/
inductive Flag
  | unevaluated | yes | no
  deriving DecidableEq, Repr

/-- its truth value; Unevaluated is an int with value True [schema/base.py:47-52, 366, 369, 829] -/
def Flag.truth : Flag → Bool
  | .no => false
  | _ => true

/-- `bool(x)` as a flag [schema/base.py:790, 814, 830] -/
def Flag.ofBool (b : Bool) : Flag := if b then .yes else .no

/-- what a validator returns: None, Skip, SkipAll, SkipAllFalse (base.py:25-43), some other true object, an `int` (or bool) that is false,
some other false object such as '' -/
inductive VResult
  | none | skip | skipAll | skipAllFalse | truthy | falseInt | falseObj
  deriving DecidableEq, Repr

/-- what `_validate` returns [schema/base.py:835-845, 890-929, schema/containers.py:122-136] -/
inductive Verdict
  | unevaluated | yes | no | noObj | skipAll | skipAllFalse
  deriving DecidableEq, Repr

/-- `bool(validated)` [schema/base.py:814, 830] -/
def Verdict.truth : Verdict → Bool
  | .unevaluated | .yes | .skipAll => true
  | .no | .noObj | .skipAllFalse => false

/-- `validated is SkipAll or validated is SkipAllFalse` [schema/base.py:817] -/
def Verdict.skips : Verdict → Bool
  | .skipAll | .skipAllFalse => true
  | _ => false

/-- `element.valid = validated` if it is Unevaluated, else `bool(validated)` (base.py:811-814) -/
def Verdict.flag (v : Verdict) : Flag := if v = .unevaluated then .unevaluated else .ofBool v.truth

/-- the state validators see and change [schema/base.py:130-135, client data] -/
structure VState (I D : Type) where
  flag : I → Flag
  data : D

/-- `element.valid = x` [schema/base.py:788, 812-814, 830] -/
def VState.setFlag (st : VState I D) (i : I) (x : Flag) : VState I D :=
  { st with flag := fun j => if j = i then x else st.flag j }

/-- a validator applied to some element and the caller's `state` [schema/base.py:919] -/
abbrev Validator (I D : Type) := VState I D → VState I D × Except PyErr VResult

/-! ### validate_element, base.py:890-929 -/

/-- a signal sent: by the fallback `NotEmpty` or by the validator at a position, with the result [schema/base.py:914-916, 920-922] -/
inductive Signal
  | notEmpty (result : Bool)
  | validator (position : Nat) (result : VResult)
  deriving DecidableEq, Repr

/-- the loop over the validators; `k` counts them [schema/base.py:918-929] -/
def validatorLoop (st : VState I D) (k : Nat) : List (Validator I D) → VState I D × List Signal × Except PyErr Verdict
  | [] => (st, [], .ok .yes)
  | fn :: fns => match fn st with
    | (st', .error er) => (st', [], .error er)
    | (st', .ok r) => match r with
      | .none => (st', [.validator k r], .ok .no)
      | .skip => (st', [.validator k r], .ok .yes)
      | .skipAll => (st', [.validator k r], .ok .skipAll)
      | .skipAllFalse => (st', [.validator k r], .ok .skipAllFalse)
      | .falseInt => (st', [.validator k r], .ok .no)
      | .falseObj => (st', [.validator k r], .ok .noObj)
      | .truthy => match validatorLoop st' (k + 1) fns with
        | (st'', sigs, res) => (st'', .validator k r :: sigs, res)

/-- `validate_element(element, state, validators)`; `optional` and `is_empty` are the element's [schema/base.py:910-929] -/
def validateElement (optional isEmpty : Bool) (validators : List (Validator I D)) (st : VState I D) :
    VState I D × List Signal × Except PyErr Verdict :=
  if isEmpty && optional then (st, [], .ok .yes)
  else match validators with
    | [] => (st, [.notEmpty !isEmpty], .ok (if !isEmpty then .yes else .no))
    | _ => validatorLoop st 0 validators

/-- What `_validate` looks at: whether the element is a Container; the lists named by `validates_down` and `validates_up` (`none`: there
is no such attribute name; an unset attribute is the empty list); `optional`; `is_empty`, which depends on the data. [schema/base.py:72-82, 125-128, 763-766, schema/containers.py:48-52] -/
structure VClass (I D : Type) where
  container : Bool
  downList : Option (List (Validator I D))
  upList : Option (List (Validator I D))
  optional : Bool
  isEmpty : D → Bool

/-- `_validate(state, descending)`: Element (base.py:835-845), Container (containers.py:122-136) -/
def runValidate (c : VClass I D) (descending : Bool) (st : VState I D) : VState I D × List Signal × Except PyErr Verdict :=
  if descending then match c.downList with
    | .none => (st, [], .ok .unevaluated)
    | some vs => if c.container && vs.isEmpty then (st, [], .ok .unevaluated) else validateElement c.optional (c.isEmpty st.data) vs st
  else match c.upList with
    | .none => (st, [], .ok .unevaluated)
    | some vs => validateElement c.optional (c.isEmpty st.data) vs st

/-! ### validate, base.py:768-833 -/

/-- An element graph: the children of an element (which may depend on the state) and `_validate` of each element. [schema/base.py:402-405, 835-845] -/
structure VEnv (I D : Type) where
  children : VState I D → I → List I
  down : I → VState I D → VState I D × Except PyErr Verdict
  up : I → VState I D → VState I D × Except PyErr Verdict

/-- the graph of elements with the given classes [schema/base.py:835-845, schema/containers.py:122-136] -/
def VEnv.ofClasses (children : VState I D → I → List I) (cls : I → VClass I D) : VEnv I D where
  children := children
  down i st := ((runValidate (cls i) true st).1, (runValidate (cls i) true st).2.2)
  up i st := ((runValidate (cls i) false st).1, (runValidate (cls i) false st).2.2)

/-- `if valid: valid &= validated`, for a result that is not Unevaluated: an int takes part in `&`, any other false object is a TypeError [schema/base.py:815-816, 831-832] -/
def landResult (valid : Bool) (v : Verdict) : Except PyErr Bool :=
  if valid then
    match v with
    | .noObj => .error .type
    | _ => .ok v.truth
  else .ok false

/-- `valid` after an element's descent (base.py:811-814) -/
def landDown (valid : Bool) (v : Verdict) : Except PyErr Bool := if v = .unevaluated then .ok valid else landResult valid v

/-- The way down (base.py:802-819).  `downs`: elements visited, the last one first, with their results; `seen` is the set of these. -/
def descend (env : VEnv I D) : Nat → VState I D → List I → List (I × Verdict) → Bool →
    Option (VState I D × List (I × Verdict) × Except PyErr Bool)
  | 0, _, _, _, _ => .none
  | _ + 1, st, [], downs, valid => some (st, downs, .ok valid)
  | n + 1, st, i :: queue, downs, valid =>
    if i ∈ downs.map Prod.fst then descend env n st queue downs valid
    else match env.down i st with
      | (st', .error er) => some (st', downs, .error er)
      | (st', .ok v) =>
        let st'' := st'.setFlag i v.flag
        match landDown valid v with
        | .error er => some (st'', (i, v) :: downs, .error er)
        | .ok valid' => descend env n st'' (if v.skips then queue else queue ++ env.children st'' i) ((i, v) :: downs) valid'

/-- The way up (base.py:821-832), over the visited elements, last first; `ups` collects the results. -/
def ascend (env : VEnv I D) : List I → VState I D → List (I × Verdict) → Bool →
    VState I D × List (I × Verdict) × Except PyErr Bool
  | [], st, ups, valid => (st, ups, .ok valid)
  | i :: is, st, ups, valid => match env.up i st with
    | (st', .error er) => (st', ups, .error er)
    | (st', .ok v) =>
      if v = .unevaluated then ascend env is st' (ups ++ [(i, v)]) valid
      else if (st'.flag i).truth then
        match landResult valid v with
        | .error er => (st'.setFlag i (.ofBool v.truth), ups ++ [(i, v)], .error er)
        | .ok valid' => ascend env is (st'.setFlag i (.ofBool v.truth)) (ups ++ [(i, v)]) valid'
      else ascend env is st' (ups ++ [(i, v)]) valid

/-- what a run of `validate()` did: the final state, the results on the way down and on the way up in the order of the visits, and the
returned value or exception [schema/base.py:799-833] -/
structure VRun (I D : Type) where
  state : VState I D
  downs : List (I × Verdict)
  ups : List (I × Verdict)
  result : Except PyErr Bool

/-- `el.validate(state)`, recursive [schema/base.py:799-833] -/
def validateTree (env : VEnv I D) (fuel : Nat) (root : I) (st : VState I D) : Option (VRun I D) :=
  match descend env fuel st [root] [] true with
  | .none => .none
  | some (st', downs, .error er) => some ⟨st', downs.reverse, [], .error er⟩
  | some (st', downs, .ok valid) =>
    match ascend env (downs.map Prod.fst) st' [] valid with
    | (st'', ups, r) => some ⟨st'', downs.reverse, ups, r⟩

/-- `el.validate(state, recurse=False)` (base.py:785-797); the result is `self.valid` -/
def validateOne (env : VEnv I D) (i : I) (st : VState I D) : VState I D × Except PyErr Flag :=
  match env.down i st with
  | (st1, .error er) => (st1, .error er)
  | (st1, .ok d) => match env.up i (st1.setFlag i d.flag) with
    | (st2, .error er) => (st2, .error er)
    | (st2, .ok u) =>
      let st3 := if u = .unevaluated then st2 else st2.setFlag i (.ofBool u.truth)
      (st3, .ok (st3.flag i))

/-! ### all_children and all_valid, base.py:364-378, 407-418 -/

/-- the loop of `all_children`; `out`: what was yielded, last first [schema/base.py:411-418] -/
def allChildrenLoop (children : I → List I) (root : I) : Nat → List I → List I → Option (List I)
  | 0, _, _ => .none
  | _ + 1, [], out => some out.reverse
  | n + 1, i :: queue, out =>
    if i = root ∨ i ∈ out then allChildrenLoop children root n queue out
    else allChildrenLoop children root n (queue ++ children i) (i :: out)

/-- `el.all_children` [schema/base.py:408-418] -/
def allChildrenIds (children : I → List I) (fuel : Nat) (root : I) : Option (List I) :=
  allChildrenLoop children root fuel (children root) []

/-- `el.all_valid` [schema/base.py:364-371] -/
def getAllValid (children : I → List I) (fuel : Nat) (root : I) (st : VState I D) : Option Bool :=
  if (st.flag root).truth then (allChildrenIds children fuel root).map fun l => l.all fun i => (st.flag i).truth
  else some false

/-- `el.all_valid = x` [schema/base.py:373-376] -/
def setAllValid (children : I → List I) (fuel : Nat) (root : I) (x : Flag) (st : VState I D) : Option (VState I D) :=
  (allChildrenIds children fuel root).map fun l => l.foldl (fun st i => st.setFlag i x) (st.setFlag root x)

/-! ### messages and validator lists -/

/-- `add_error` / `add_warning` (base.py:617-625) -/
def addMessage {M : Type} [DecidableEq M] (messages : List M) (m : M) : List M := if m ∈ messages then messages else messages ++ [m]

/-- `including_validators(*new, position=p)`: the new class's `validators` (base.py:234-240); the slice position as Python clips it -/
def includingValidators {V : Type} (old new : List V) (p : Int) : List V :=
  let position : Int := if p < 0 then old.length + 1 + p else p
  let at' : Nat := min old.length (if position < 0 then (position + old.length).toNat else position.toNat)
  old.take at' ++ new ++ old.drop at'

end Flatland
