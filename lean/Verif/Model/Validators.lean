import Verif.Model.Messages
/-! The validators of flatland/validation/scalars.py, containers.py and network.py.

A validator is modelled by what it decides about an element: `.ok none` – it returns True; `.ok (some key)` – it returns
`self.note_error(element, state, key)`; an exception.  `runCheck` then does what Python does with that. -/
namespace Flatland

/-- what `note_error(element, state, key)` uses: the environment of message expansion and the validator's attributes [validation/base.py:52, 108-112] -/
structure Noter where
  env : MsgEnv
  attr : PStr → Except PyErr MsgAttr

/-- the rest of `validate`: `return True` or `return self.note_error(element, state, key)`, on the element's errors [validation/base.py:108-112] -/
def runCheck [Runtime] (n : Noter) (errors : List PStr) : Except PyErr (Option PStr) → List PStr × Except PyErr Bool
  | .error er => (errors, .error er)
  | .ok .none => (errors, .ok true)
  | .ok (some key) => noteMessage n.env errors .none (n.attr key)

/-! ### ordering of values -/

/-- the kind of a value that can be ordered, with its components: numbers (bool included); text by code points; year, month, day; …
Values of different kinds cannot be ordered (TypeError in Python 3). Lists, dicts and other objects: not modelled, TypeError here. -/
inductive OrderKind
  | number
  | text
  | date
  | time
  | datetime
  deriving DecidableEq, Repr

/-- what Python compares values by -/
def orderKey : PyVal → Option (OrderKind × List Int)
  | .bool b => some (.number, [if b then 1 else 0])
  | .int i => some (.number, [i])
  | .str s => some (.text, s.map fun c => (c.toNat : Int))
  | .date y m d => some (.date, [(y : Int), m, d])
  | .time h mi s us => some (.time, [(h : Int), mi, s, us])
  | .datetime y m d h mi s us => some (.datetime, [(y : Int), m, d, h, mi, s, us])
  | _ => .none

/-- lexicographic comparison [Python comparison; used at validation/scalars.py:328, 366, 404, 442, 505-508] -/
def lexCompare : List Int → List Int → Ordering
  | [], [] => .eq
  | [], _ :: _ => .lt
  | _ :: _, [] => .gt
  | a :: as, b :: bs => if a < b then .lt else if b < a then .gt else lexCompare as bs

/-- the comparison behind `<`, `<=`, `>`, `>=` [Python comparison; used at validation/scalars.py:328, 366, 404, 442, 505-508] -/
def pyOrder (a b : PyVal) : Except PyErr Ordering :=
  match orderKey a, orderKey b with
  | some (k, x), some (l, y) => if k = l then .ok (lexCompare x y) else .error .type
  | _, _ => .error .type

/-- `a < b` [Python comparison; used at validation/scalars.py:328, 508] -/
def pyLt (a b : PyVal) : Except PyErr Bool := (pyOrder a b).map (· == .lt)
/-- `a <= b` [Python comparison; used at validation/scalars.py:366, 505] -/
def pyLe (a b : PyVal) : Except PyErr Bool := (pyOrder a b).map (· != .gt)
/-- `a > b` [Python comparison; used at validation/scalars.py:404] -/
def pyGt (a b : PyVal) : Except PyErr Bool := (pyOrder a b).map (· == .gt)
/-- `a >= b` [Python comparison; used at validation/scalars.py:442] -/
def pyGe (a b : PyVal) : Except PyErr Bool := (pyOrder a b).map (· != .lt)

/-- `len(v)` [Python; used at validation/containers.py:155, 204, 282] -/
def pyLen : PyVal → Except PyErr Nat
  | .list xs => .ok xs.length
  | .str s => .ok s.length
  | .dict kvs => .ok kvs.length
  | _ => .error .type

/-! ### validators with a relation -/

/-- what they look at; `isSequence`: has a `member_schema` [validation/scalars.py:22-25, 41-44, validation/containers.py:147-159] -/
structure Checked where
  value : PyVal
  u : PStr
  isSequence : Bool := false

/-- the validators of validation/scalars.py and the counting ones of validation/containers.py with their parameters [validation/scalars.py:7-510, validation/containers.py:109-289] -/
inductive Check
  | present
  | isTrue
  | isFalse
  | valueIn (options : List PyVal)
  | converted
  | shorterThan (maxlength : Int)
  | longerThan (minlength : Int)
  | lengthBetween (minlength maxlength : Int)
  | valueLessThan (boundary : PyVal)
  | valueAtMost (maximum : PyVal)
  | valueGreaterThan (boundary : PyVal)
  | valueAtLeast (minimum : PyVal)
  | valueBetween (minimum maximum : PyVal) (inclusive : Bool)
  | hasAtLeast (minimum : Int)
  | hasAtMost (maximum : Int)
  | hasBetween (minimum maximum : Int)

/-- `if not test: note_error(key)` with a test that may raise [validation/scalars.py:327-330, 365-368, 403-406, 441-444] -/
def failUnless (test : Except PyErr Bool) (key : String) : Except PyErr (Option PStr) :=
  match test with
  | .error er => .error er
  | .ok b => .ok (if b then .none else some key.toList)

/-- Python's `a and b` of tests -/
def andThen (a : Except PyErr Bool) (b : Except PyErr Bool) : Except PyErr Bool :=
  match a with
  | .error er => .error er
  | .ok true => b
  | .ok false => .ok false

/-- `validate` of each: scalars.py 22-25, 41-44, 60-63, 102-105, 132-136, 180-183, 229-232, 288-292, 327-330, 365-368, 403-406, 441-444,
503-510; containers.py 147-159, 200-208, 278-289 [validation/scalars.py:22-510, validation/containers.py:147-289] -/
def runValidator [Runtime] (e : Checked) : Check → Except PyErr (Option PStr)
  | .present => .ok (if e.u = [] then some "missing".toList else .none)
  | .isTrue => .ok (if !truthy e.value then some "false".toList else .none)
  | .isFalse => .ok (if truthy e.value then some "true".toList else .none)
  | .valueIn options => .ok (if options.any (pyEq e.value) then .none else some "fail".toList)
  | .converted => .ok (if isNone e.value then some "incorrect".toList else .none)
  | .shorterThan n => .ok (if (e.u.length : Int) > n then some "exceeded".toList else .none)
  | .longerThan n => .ok (if (e.u.length : Int) < n then some "short".toList else .none)
  | .lengthBetween a b => .ok (if (e.u.length : Int) < a ∨ (e.u.length : Int) > b then some "breached".toList else .none)
  | .valueLessThan b => failUnless (pyLt e.value b) "failure"
  | .valueAtMost b => failUnless (pyLe e.value b) "failure"
  | .valueGreaterThan b => failUnless (pyGt e.value b) "failure"
  | .valueAtLeast b => failUnless (pyGe e.value b) "failure"
  | .valueBetween lo hi inclusive =>
    if inclusive then failUnless (andThen (pyLe lo e.value) (pyLe e.value hi)) "failure_inclusive"
    else failUnless (andThen (pyLt lo e.value) (pyLt e.value hi)) "failure_exclusive"
  | .hasAtLeast n =>
    if !e.isSequence then .error .assertion
    else if n = 0 then .ok .none
    else if isNone e.value then .ok (some "failure".toList)
    else match pyLen e.value with
      | .error er => .error er
      | .ok l => .ok (if (l : Int) < n then some "failure".toList else .none)
  | .hasAtMost n =>
    if !e.isSequence then .error .assertion
    else if !truthy e.value then .ok .none
    else match pyLen e.value with
      | .error er => .error er
      | .ok l => .ok (if (l : Int) > n then some "failure".toList else .none)
  | .hasBetween a b =>
    if !e.isSequence then .error .assertion
    else match (if isNone e.value then .ok 0 else pyLen e.value) with
      | .error er => .error er
      | .ok l => .ok (if a ≤ l ∧ (l : Int) ≤ b then .none else some (if a = b then "exact".toList else "range".toList))

/-- `HasBetween.__init__` (containers.py:272-276) -/
def hasBetweenNew (minimum maximum : Int) : Except PyErr Check :=
  if maximum ≥ minimum ∧ minimum ≥ 0 then .ok (.hasBetween minimum maximum) else .error .type

/-! ### NotDuplicated, containers.py:84-106 -/

/-- the loop over the siblings: is it valid, and the position (0 if the element was not met); elements are known by identity [validation/containers.py:94-101] -/
def dupLoop {I : Type} [DecidableEq I] (op : I → I → Except PyErr Bool) (el : I) : Nat → Bool → List I → Except PyErr (Bool × Nat)
  | _, valid, [] => .ok (valid, 0)
  | idx, valid, sibling :: rest =>
    if sibling = el then .ok (valid, idx + 1)
    else if valid then match op el sibling with
      | .error er => .error er
      | .ok dup => dupLoop op el (idx + 1) (!dup) rest
    else dupLoop op el (idx + 1) false rest

/-- `NotDuplicated.validate`; `container`: the children of the parent (through the slot), `none` if there is no parent.  The result:
`none` for True, else the position reported. [validation/containers.py:84-106] -/
def notDuplicated {I : Type} [DecidableEq I] (op : I → I → Except PyErr Bool) (el : I) (container : Option (List I)) : Except PyErr (Option Nat) :=
  match container with
  | .none => .error .type
  | some children => match dupLoop op el 0 true children with
    | .error er => .error er
    | .ok (valid, position) => .ok (if valid then .none else some position)

/-! ### MapEqual, ValuesEqual, UnisEqual, scalars.py:513-620 -/

/-- evaluate for all paths, in order [validation/scalars.py:565] -/
def mapExcept {A B : Type} (f : A → Except PyErr B) : List A → Except PyErr (List B)
  | [] => .ok []
  | a :: as => match f a with
    | .error er => .error er
    | .ok b => match mapExcept f as with
      | .error er => .error er
      | .ok bs => .ok (b :: bs)

/-- `all(fn(el) == sample for el in elements)` [validation/scalars.py:566-568] -/
def allEqual {E V : Type} (fn : E → Except PyErr V) (eq : V → V → Bool) (sample : V) : List E → Except PyErr Bool
  | [] => .ok true
  | e :: es => match fn e with
    | .error er => .error er
    | .ok v => if eq v sample then allEqual fn eq sample es else .ok false

/-- `MapEqual.validate`; `find path` is `element.find(path, single=True)` [validation/scalars.py:564-573] -/
def mapEqual {P E V : Type} (find : P → Except PyErr E) (fn : E → Except PyErr V) (eq : V → V → Bool) (paths : List P) : Except PyErr (Option PStr) :=
  match mapExcept find paths with
  | .error er => .error er
  | .ok [] => .error .index
  | .ok (first :: rest) => match fn first with
    | .error er => .error er
    | .ok sample => failUnless (allEqual fn eq sample rest) "unequal"

/-- `MapEqual.__init__`: the paths given, or else those of the class (555-562) [validation/scalars.py:557-561] -/
def mapEqualNew {P : Type} (given classPaths : List P) : Except PyErr (List P) :=
  match given with
  | [] => if classPaths.isEmpty then .error .assertion else .ok classPaths
  | _ => if given.length > 1 then .ok given else .error .assertion

/-- the `transform` of a MapEqual: a function, found on the class or given to the constructor (which stores it on the validator), or another
callable such as an `attrgetter` [validation/scalars.py:547, 561, 602, 614, validation/base.py:13-35] -/
inductive TransformAttr (E V : Type)
  | function (onClass : Bool) (f : E → Except PyErr V)
  | callable (f : E → Except PyErr V)

/-- `fn = self.transform; fn(element)`: a function of one argument found on the class is called with two (566) [validation/scalars.py:566-568] -/
def TransformAttr.call {E V : Type} : TransformAttr E V → E → Except PyErr V
  | .function true _, _ => .error .type
  | .function false f, e => f e
  | .callable f, e => f e

/-- `', '.join(el.label for el in elements[:-1])` and `elements[-1].label`, with None among the labels (570-571) [validation/scalars.py:570-571] -/
def equalLabels : List (Option PStr) → Except PyErr (PStr × Option PStr)
  | [] => .error .index
  | l :: ls =>
    let labels := (l :: ls).dropLast
    if labels.contains .none then .error .type
    else .ok (pyJoin ", ".toList (labels.map fun x => x.getD []), (l :: ls).getLast (by simp))

/-- `MapEqual.validate` in full: None for True, else the labels for the message `unequal` [validation/scalars.py:564-573] -/
def mapEqualFull {P E V : Type} (find : P → Except PyErr E) (transform : TransformAttr E V) (eq : V → V → Bool) (label : E → Option PStr)
    (paths : List P) : Except PyErr (Option (PStr × Option PStr)) :=
  match mapExcept find paths with
  | .error er => .error er
  | .ok elements => match mapEqual find transform.call eq paths with
    | .error er => .error er
    | .ok .none => .ok .none
    | .ok (some _) => match equalLabels (elements.map label) with
      | .error er => .error er
      | .ok r => .ok (some r)

/-! ### IsEmail, network.py:15-106 -/

/-- `[a-z0-9\-]` with IGNORECASE, on ASCII text (the domain has been encoded to ASCII) [validation/network.py:70-71] -/
def domainChar (c : Char) : Bool :=
  (decide ('a' ≤ c) && decide (c ≤ 'z')) || (decide ('A' ≤ c) && decide (c ≤ 'Z')) || (decide ('0' ≤ c) && decide (c ≤ '9')) || c == '-'

/-- matching `^(?:[a-z0-9\-]+\.)*[a-z0-9\-]+$`; `started`: the current label is not empty.  `$` also matches before a final newline. [validation/network.py:70-71, 96] -/
def domainScan (started : Bool) : PStr → Bool
  | [] => started
  | c :: s =>
    if c = '\n' then started && s.isEmpty
    else if c = '.' then started && domainScan false s
    else domainChar c && domainScan true s

/-- `IsEmail.validate` on `element.u`; `idna`: `domain.encode('idna').decode('ascii')` or `none` for UnicodeError; `localOk`: whether the
local part matches `local_part_pattern` (true without one) [validation/network.py:73-106] -/
def isEmail [Runtime] (idna : PStr → Option PStr) (localOk : PStr → Bool) (nonLocal : Bool) (addr : PStr) : Option PStr :=
  if addr.count '@' ≠ 1 then some "invalid".toList
  else
    let localPart := addr.takeWhile (· != '@')
    let domain := (addr.dropWhile (· != '@')).drop 1
    if localPart = [] ∨ localPart.all space then some "invalid".toList
    else if !localOk localPart then some "invalid".toList
    else match idna domain with
      | .none => some "invalid".toList
      | some domain =>
        if domain.length > 253 then some "invalid".toList
        else if !domainScan false domain then some "invalid".toList
        else
          let labels := pySplit ['.'] domain
          if labels.length = 1 ∧ nonLocal = true then some "invalid".toList
          else if !labels.all (fun l => decide (l.length < 64)) then some "invalid".toList
          else .none

/-! ### URLs, network.py:109-338 -/

/-- `_url_parts` [validation/network.py:110] -/
def urlParts : List PStr := ["scheme", "netloc", "path", "params", "query", "fragment"].map String.toList

/-- `allowed_schemes`: exactly the tuple `('*',)`, or some other collection [validation/network.py:164] -/
inductive Schemes
  | star
  | only (names : List PStr)

/-- `self.allowed_schemes != ('*',)` and `scheme not in self.allowed_schemes` (178-179) [validation/network.py:180-181] -/
def Schemes.blocks (schemes : Schemes) (scheme : PStr) : Bool :=
  match schemes with
  | .star => false
  | .only names => !names.contains scheme

/-- `URLValidator.validate`; `parsed`: None for a value of None, else the outcome of `urlparse(element.value.strip())` as a function of part
names [validation/network.py:168-188] -/
def urlValidator (schemes : Schemes) (allowed : List PStr) (parsed : Option (Except PyErr (PStr → PStr))) : Option PStr :=
  match parsed with
  | .none => some "bad_format".toList
  | some (.error _) => some "bad_format".toList
  | some (.ok url) =>
    let scheme := url "scheme".toList
    if scheme = [] then some "blocked_scheme".toList
    else if schemes.blocks scheme then some "blocked_scheme".toList
    else if urlParts.any (fun part => !allowed.contains part && url part != []) then some "blocked_part".toList
    else .none

/-- a rule for a part: True, or a collection of values; an empty one is the same as no rule [validation/network.py:253-254, 270-283] -/
inductive PartRule
  | always
  | values (vs : List (Option PStr))

/-- `all_parts` [validation/network.py:251-252] -/
def httpParts : List PStr :=
  ["scheme", "username", "password", "hostname", "port", "path", "params", "query", "fragment"].map String.toList

/-- truth of a part's value [validation/network.py:279] -/
def partTruth : Option PStr → Bool
  | .none => false
  | some s => !s.isEmpty

/-- does the part fail the rule of `required_parts`? (271-277) [validation/network.py:271-276] -/
def partMissing (required : Option PartRule) (v : Option PStr) : Bool :=
  match required with
  | some .always => v.isNone
  | some (.values vs) => !vs.isEmpty && !vs.contains v
  | .none => false

/-- does the part fail the rule of `forbidden_parts`? (278-283) [validation/network.py:278-283] -/
def partPresent (forbidden : Option PartRule) (v : Option PStr) : Bool :=
  match forbidden with
  | some .always => partTruth v
  | some (.values vs) => !vs.isEmpty && vs.contains v
  | .none => false

/-- one round of HTTPURLValidator's loop (263-283): `none` to go on, else the message [validation/network.py:264-283] -/
def httpPart (required forbidden : Option PartRule) (value : Except PyErr (Option PStr)) : Except PyErr (Option PStr) :=
  match value with
  | .error .value => .ok (some "bad_format".toList)
  | .error er => .error er
  | .ok v =>
    if partMissing required v then .ok (some "required_part".toList)
    else if partPresent forbidden v then .ok (some "forbidden_part".toList)
    else .ok .none

/-- the loop [validation/network.py:263-284] -/
def httpLoop (required forbidden : PStr → Option PartRule) (get : PStr → Except PyErr (Option PStr)) : List PStr → Except PyErr (Option PStr)
  | [] => .ok .none
  | part :: parts => match httpPart (required part) (forbidden part) (get part) with
    | .error er => .error er
    | .ok (some key) => .ok (some key)
    | .ok .none => httpLoop required forbidden get parts

/-- `HTTPURLValidator.validate`; `parsed`: None for a value of None, else the outcome of `urlparse` (not guarded) as a function from part
names (attribute access may raise; the port as text) [validation/network.py:257-284] -/
def httpURLValidator (parts : List PStr) (required forbidden : PStr → Option PartRule)
    (parsed : Option (Except PyErr (PStr → Except PyErr (Option PStr)))) : Except PyErr (Option PStr) :=
  match parsed with
  | .none => .ok .none
  | some (.error er) => .error er
  | some (.ok get) => httpLoop required forbidden get parts

/-- the default `required_parts` (253): `dict(schema=('http', 'https'), hostname=True)` [validation/network.py:253] -/
def defaultRequired' (part : PStr) : Option PartRule :=
  if part = "schema".toList then some (.values [some "http".toList, some "https".toList])
  else if part = "hostname".toList then some .always
  else .none

/-- the default `forbidden_parts` (254) [validation/network.py:254] -/
def defaultForbidden (part : PStr) : Option PartRule :=
  if part = "username".toList ∨ part = "password".toList then some .always else .none

/-- the loop of `URLCanonicalizer.validate` (332-335); a part name that is none of `_url_parts` is a ValueError [validation/network.py:331-335] -/
def discardLoop : List PStr → List (Option PStr) → Except PyErr (List (Option PStr))
  | [], url => .ok url
  | part :: parts, url =>
    if part ∈ urlParts then
      let idx := urlParts.idxOf part
      match url[idx]? with
      | .none => .error .index
      | some current => discardLoop parts (url.set idx (match current with
        | some _ => some []
        | .none => .none))
    else .error .value

/-- `URLCanonicalizer.validate` on the element's value: the new value and the message, if any [validation/network.py:323-338] -/
def urlCanonicalize (discard : List PStr) (parse : PyVal → Except PyErr (List (Option PStr))) (unparse : List (Option PStr) → Except PyErr PyVal)
    (value : PyVal) : Except PyErr (PyVal × Option PStr) :=
  if discard.isEmpty then .ok (value, .none)
  else match parse value with
    | .error _ => .ok (value, some "bad_format".toList)
    | .ok url => match discardLoop discard url with
      | .error er => .error er
      | .ok url' => match unparse url' with
        | .error er => .error er
        | .ok v => .ok (v, .none)

end Flatland
