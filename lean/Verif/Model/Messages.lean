import Verif.Model.Scalars
/-! Validation messages: flatland/validation/base.py:52-317 and flatland/schema/util.py.

Simplifications.  Of Python's `%` formatting with a mapping only `%(key)s` and `%%` are modelled; any other conversion (a width, another
letter) is a ValueError here.  A translation function is total and maps texts to texts, and values to values. -/
namespace Flatland

/-! ### `template % mapping` -/

/-- where the scan of a template is: in text, after `%`, in a key (with the number of open parentheses), after a key [Python % formatting; used at validation/base.py:261] -/
inductive FmtMode
  | text
  | percent
  | key (acc : PStr) (depth : Nat)
  | conv (v : PyVal)

/-- CPython's `unicode_format` for `%(key)s` and `%%`: the key is looked up when its parenthesis closes -/
def formatGo [Runtime] (look : PStr → Except PyErr PyVal) : FmtMode → PStr → Except PyErr PStr
  | .text, [] => .ok []
  | .percent, [] => .error .value
  | .key _ _, [] => .error .value
  | .conv _, [] => .error .value
  | .text, c :: s => if c = '%' then formatGo look .percent s else (formatGo look .text s).map (c :: ·)
  | .percent, c :: s =>
    if c = '%' then (formatGo look .text s).map ('%' :: ·)
    else if c = '(' then formatGo look (.key [] 1) s
    else .error .value
  | .key acc d, c :: s =>
    if c = ')' then
      if d ≤ 1 then match look acc with
        | .error er => .error er
        | .ok v => formatGo look (.conv v) s
      else formatGo look (.key (acc ++ [c]) (d - 1)) s
    else if c = '(' then formatGo look (.key (acc ++ [c]) (d + 1)) s
    else formatGo look (.key (acc ++ [c]) d) s
  | .conv v, c :: s => if c = 's' then (formatGo look .text s).map (pyText v ++ ·) else .error .value

/-- `template % format_map` [validation/base.py:261] -/
def formatMessage [Runtime] (look : PStr → Except PyErr PyVal) (template : PStr) : Except PyErr PStr := formatGo look .text template

/-! ### as_format_mapping, validation/base.py:264-317 -/

/-- an object values are taken from: its `__getitem__`, if it has one, and `getattr` [validation/base.py:276-277] -/
structure Target where
  item : Option (PStr → Except PyErr PyVal)
  attr : PStr → Except PyErr PyVal

/-- LookupError with its subclasses, and TypeError (line 289) [validation/base.py:289] -/
def itemMissing : PyErr → Bool
  | .key => true
  | .index => true
  | .lookup => true
  | .type => true
  | _ => false

/-- one round of the loop 283-296: the value, or `none` to go on [validation/base.py:283-296] -/
def targetGet (t : Target) (k : PStr) : Except PyErr (Option PyVal) :=
  let viaAttr : Except PyErr (Option PyVal) := match t.attr k with
    | .ok v => .ok (some v)
    | .error .attribute => .ok .none
    | .error er => .error er
  match t.item with
  | .none => viaAttr
  | some get => match get k with
    | .ok v => .ok (some v)
    | .error er => if itemMissing er then viaAttr else .error er

/-- `__getitem__` without the transformation (282-299) [validation/base.py:282-299] -/
def mapGet (k : PStr) : List Target → Except PyErr PyVal
  | [] => .error .key
  | t :: ts => match targetGet t k with
    | .error er => .error er
    | .ok (some v) => .ok v
    | .ok .none => mapGet k ts

/-- a translation function, at texts and at the values of format keys [validation/base.py:301-302] -/
structure Transform where
  text : PStr → PStr
  value : PyVal → PyVal

/-- `__getitem__` (282-304) [validation/base.py:282-304] -/
def mapGetItem (transform : Option Transform) (targets : List Target) (k : PStr) : Except PyErr PyVal :=
  match mapGet k targets with
  | .error er => .error er
  | .ok v => match transform with
    | .none => .ok v
    | some tr => .ok (tr.value v)

/-- `__contains__` (306-311); errors other than KeyError propagate [validation/base.py:306-311] -/
def mapContains (transform : Option Transform) (targets : List Target) (k : PStr) : Except PyErr Bool :=
  match mapGetItem transform targets k with
  | .ok _ => .ok true
  | .error .key => .ok false
  | .error er => .error er

/-! ### find_transformer, validation/base.py:184-198, schema/util.py:5-52 -/

/-- the caller's `state`: `hasattr` with the attribute's value (which may be None), and the outcome of indexing, if it can be indexed [validation/base.py:184-190] -/
structure I18nState (T : Type) where
  attr : Option (Option T)
  item : Option (Except PyErr (Option T))

/-- `search_ancestry` with an attribute getter: the element, then its parents; `none`: no such attribute, or a false one [schema/util.py:10-29] -/
def searchAncestry {T : Type} : List (Option T) → Option T
  | [] => .none
  | some t :: _ => some t
  | .none :: rest => searchAncestry rest

/-- `find_transformer`: state attribute, state item, ancestry, builtins [validation/base.py:184-198, schema/util.py:32-52] -/
def findTransformer {T : Type} (state : I18nState T) (ancestry : List (Option T)) (builtin : Option T) : Except PyErr (Option T) :=
  match state.attr with
  | some t => .ok t
  | .none =>
    let rest : Option T := match searchAncestry ancestry with
      | some t => some t
      | .none => builtin
    match state.item with
    | .none => .ok rest
    | some (.ok t) => .ok t
    | some (.error .key) => .ok rest
    | some (.error er) => .error er

/-! ### expand_message and note_error, validation/base.py:52-148, 200-261 -/

/-- a message: a template, or singular, plural and the key of the number [validation/base.py:237-241] -/
inductive Msg
  | single (template : PStr)
  | plural (one many : PStr) (nKey : PStr)

/-- the value of a message attribute [validation/base.py:108-109, 228-229] -/
inductive MsgAttr
  | none
  | fixed (m : Msg)
  | callable (run : Except PyErr Msg)

/-- truth of a message attribute [validation/base.py:108-109] -/
def MsgAttr.truth : MsgAttr → Bool
  | .none => false
  | .fixed (.single t) => !t.isEmpty
  | .fixed (.plural _ _ _) => true
  | .callable _ => true

/-- what expansion uses: the format targets (extra arguments, state, validator, element; those that are not None), and the outcomes of
`find_transformer` [validation/base.py:231-239] -/
structure MsgEnv where
  targets : List Target
  ugettext : Except PyErr (Option Transform)
  ungettext : Except PyErr (Option (PStr → PStr → PyVal → PStr))

/-- the number for a plural message (242-249) [validation/base.py:242-249] -/
def pluralNumber [Runtime] (ugettext : Option Transform) (targets : List Target) (nKey : PStr) : Except PyErr PyVal :=
  match mapGetItem ugettext targets nKey with
  | .error .key => .ok (.str nKey)
  | .error er => .error er
  | .ok n => match intOf n with
    | .ok i => .ok (.int i)
    | .error .type => .ok n
    | .error .key => .ok (.str nKey)
    | .error er => .error er

/-- the template after pluralization and translation (237-259) [validation/base.py:237-259] -/
def chooseTemplate [Runtime] (env : MsgEnv) (ugettext : Option Transform) : Msg → Except PyErr PStr
  | .single t => .ok (match ugettext with
    | some tr => tr.text t
    | .none => t)
  | .plural one many nKey =>
    match env.ungettext with
    | .error er => .error er
    | .ok ungettext =>
      match pluralNumber ugettext env.targets nKey with
      | .error er => .error er
      | .ok n => match ungettext with
        | some f => .ok (f one many n)
        | .none =>
          let one' := match ugettext with
            | some tr => tr.text one
            | .none => one
          let many' := match ugettext with
            | some tr => tr.text many
            | .none => many
          .ok (if pyEq n (.int 1) then one' else many')

/-- `expand_message` (228-261) [validation/base.py:228-261] -/
def expandMessage [Runtime] (env : MsgEnv) (m : MsgAttr) : Except PyErr PStr :=
  match (match m with
    | .callable run => run
    | .fixed m => .ok m
    | .none => .error .type) with
  | .error er => .error er
  | .ok msg => match env.ugettext with
    | .error er => .error er
    | .ok ugettext => match chooseTemplate env ugettext msg with
      | .error er => .error er
      | .ok t => formatMessage (mapGetItem ugettext env.targets) t

/-- `note_error` / `note_warning` on the element's messages: `given` is the argument *message*, `attr` the outcome of `getattr(self, key)` [validation/base.py:108-112, 144-148] -/
def noteMessage [Runtime] (env : MsgEnv) (messages : List PStr) (given : MsgAttr) (attr : Except PyErr MsgAttr) : List PStr × Except PyErr Bool :=
  match (if given.truth then .ok given else attr) with
  | .error er => (messages, .error er)
  | .ok m =>
    if m.truth then match expandMessage env m with
      | .error er => (messages, .error er)
      | .ok t => ((if t ∈ messages then messages else messages ++ [t]), .ok false)
    else (messages, .ok false)

end Flatland
