import Verif.Model.Py
/-
Model of flatland/schema/paths.py: tokenizing path expressions, simplifying them, evaluating them on a graph of
elements, and the cache of compiled expressions.  Also `Element.find` (flatland/schema/base.py:481-536).
-/
namespace Flatland

/-- An operation of a compiled path: flatland/schema/paths.py:11-15.  `name none` is the empty step of `a//b`;
`slice a b c` is `(SLICE, slice(a, b, c))`. -/
inductive Op
  | top | up | here
  | name (n : Option PStr)
  | slice (a b c : Option Int)
  deriving DecidableEq, Repr

/-! ### the token regular expression, paths.py:17-34 -/

/-- First alternative, `(?:\\[/.\[]|[^/\[])+` (paths.py:20): the longest run of escaped `/ . [` and of characters other
than `/` and `[`.  `[]` = no match.  (The later alternatives for `.` and `..`, paths.py:27-30, never get a turn because
this one already matches a dot.) -/
def nameRun : PStr → PStr
  | [] => []
  | '\\' :: c :: s =>
    if c = '/' ∨ c = '.' ∨ c = '[' then '\\' :: c :: nameRun s else '\\' :: nameRun (c :: s)
  | c :: s => if c = '/' ∨ c = '[' then [] else c :: nameRun s

/-- drop an optional character [schema/paths.py:24] -/
def optChar (c : Char) : PStr → PStr
  | [] => []
  | x :: s => if x = c then s else x :: s

/-- `-?\d*` [schema/paths.py:24] -/
def optInt [Runtime] (s : PStr) : PStr := (optChar '-' s).dropWhile fun c => (digit c).isSome

/-- Does the whole text match `-?\d*:?-?\d*\:?-?\d*` (paths.py:24)?  Every part is optional and the parts are taken
greedily; a shorter choice never lets more text match. -/
def sliceSpec [Runtime] (s : PStr) : Bool :=
  (optInt (optChar ':' (optInt (optChar ':' (optInt s))))).isEmpty

/-- the look-ahead `(?=$|/|\[)`; `$` also matches before a final newline [schema/paths.py:24, 26] -/
def bracketEnds : PStr → Bool
  | [] => true
  | ['\n'] => true
  | c :: _ => c == '/' || c == '['

/-- what `\[...\](?=$|/|\[)` finds between the brackets, the text following `[` being given: everything up to the first
`]` (neither bracket alternative can pass it) [schema/paths.py:24-26] -/
def bracketed (s : PStr) : Option PStr :=
  match s.dropWhile (· != ']') with
  | _ :: rest => if bracketEnds rest then some (s.takeWhile (· != ']')) else .none
  | [] => .none

/-- One match of the regular expression at a position (paths.py:17-34): the token and the slice group (`''` when the
group took no part).  `prev` is the character before the position, for the look-behinds. -/
def matchAt [Runtime] (prev : Option Char) (s : PStr) : Option (PStr × PStr) :=
  if nameRun s ≠ [] then some (nameRun s, [])
  else match s with
    | '/' :: _ => if prev = some '\\' then .none else some (['/'], [])
    | '[' :: rest =>
      match (if prev = some '\\' then .none else bracketed rest) with
      | some inner =>
        if sliceSpec inner then some ('[' :: inner ++ [']'], inner)
        else if inner.getLast? = some '\\' then some (['['], [])
        else some ('[' :: inner ++ [']'], [])
      | .none => some (['['], [])
    | _ => .none

/-- `_tokenize_re.findall(path)`; `skip` counts characters of the current match still to be passed. [schema/paths.py:17-34, 110] -/
def findAll [Runtime] : Nat → Option Char → PStr → List (PStr × PStr)
  | _, _, [] => []
  | k + 1, _, c :: s => findAll k (some c) s
  | 0, prev, c :: s =>
    match matchAt prev (c :: s) with
    | some m => m :: findAll (m.1.length - 1) (some c) s
    | .none => findAll 0 (some c) s

/-- `_unescape_re.sub(r'\1', token)`, paths.py:35 -/
def unescape : PStr → PStr
  | [] => []
  | '\\' :: c :: s =>
    if c = '/' ∨ c = '[' ∨ c = ']' ∨ c = '.' then c :: unescape s else '\\' :: unescape (c :: s)
  | c :: s => c :: unescape s

/-! ### tokenize, paths.py:104-194 -/

/-- `segs[i] and int(segs[i])` for a non-empty segment; ValueError for `-`, `1-2`, ... [schema/paths.py:186-191] -/
def segInt [Runtime] (s : PStr) : Except PyErr Int :=
  match pyInt s with
  | some i => .ok i
  | .none => .error .value

/-- `seg and int(seg) or dflt`: the default also replaces zero [schema/paths.py:186-191] -/
def segOr [Runtime] (s : PStr) (dflt : Option Int) : Except PyErr (Option Int) :=
  if s = [] then .ok dflt
  else match segInt s with
    | .error e => .error e
    | .ok i => .ok (if i = 0 then dflt else some i)

/-- `_parse_slice`, paths.py:172-194.  (At most two colons can occur, so `split(':', 2)` is `split(':')`.) -/
def parseSlice [Runtime] (p : PStr) : Except PyErr Op :=
  if p = [':'] ∨ p = [':', ':'] then .ok (.slice .none .none .none)
  else if ':' ∉ p then
    if p.head? ≠ some '-' then .ok (.name (some p))
    else match segInt p with
      | .error e => .error e
      | .ok off => if off = -1 then .ok (.slice (some off) .none .none) else .ok (.slice (some off) (some (off + 1)) .none)
  else
    let segs := pySplit [':'] p
    let s0 := segs.getD 0 []
    match segOr s0 (some 0) with
    | .error e => .error e
    | .ok start => match segOr (segs.getD 1 []) .none with
      | .error e => .error e
      | .ok stop =>
        if segs.length < 3 then .ok (.slice start stop .none)
        else match segOr (segs.getD 2 []) (some 1) with
          | .error e => .error e
          | .ok stride => .ok (.slice (if s0 = [] then .none else start) stop stride)

/-- is the last operation a NAME? (`last_type is NAME`, paths.py:134) -/
def lastIsName (ops : List Op) : Bool :=
  match ops.getLast? with
  | some (.name _) => true
  | _ => false

/-- The loop of `tokenize`, paths.py:110-145: `ops` collected so far, `last` token (`none` before the first). -/
def tokLoop [Runtime] : List (PStr × PStr) → List Op → Option PStr → Except PyErr (List Op)
  | [], ops, _ => .ok ops
  | (tok, spec) :: rest, ops, last =>
    if tok = ['/'] then
      if last = .none then tokLoop rest (ops ++ [.top]) (some tok)
      else if last = some ['/'] then tokLoop rest (ops ++ [.name .none]) (some tok)
      else tokLoop rest ops (some tok)
    else if tok = ['.'] then tokLoop rest (ops ++ [.here]) (some tok)
    else if tok = ['.', '.'] then tokLoop rest (ops ++ [.up]) (some tok)
    else if spec ≠ [] then
      match parseSlice spec with
      | .error e => .error e
      | .ok op => tokLoop rest (ops ++ [op]) (some tok)
    else if tok.head? = some '[' ∧ lastIsName ops = true then
      tokLoop rest (ops.dropLast ++ [.name (some (last.getD [] ++ unescape tok))]) (some (last.getD [] ++ unescape tok))
    else tokLoop rest (ops ++ [.name (some (unescape tok))]) (some tok)

/-- `_canonicalize`, paths.py:153-169 (`many`: `len(tokens) > 1`), the collected operations being kept in reverse. -/
def canonLoop (many : Bool) : List Op → List Op → List Op
  | [], acc => acc.reverse
  | op :: rest, acc =>
    if op = .here ∧ many = true then canonLoop many rest acc
    else if op ≠ .up then canonLoop many rest (op :: acc)
    else match acc with
      | [] => canonLoop many rest [op]
      | .top :: _ => canonLoop many rest acc
      | .up :: _ => canonLoop many rest (op :: acc)
      | _ :: acc' => canonLoop many rest acc'

/-- `_canonicalize(tokens)` [schema/paths.py:153-169] -/
def canonicalize (ops : List Op) : List Op := canonLoop (decide (1 < ops.length)) ops []

/-- `tokenize(path)`, paths.py:104-150. -/
def tokenize [Runtime] (path : PStr) : Except PyErr (List Op) :=
  match tokLoop (findAll 0 .none path) [] .none with
  | .error e => .error e
  | .ok ops => .ok (if .here ∈ ops ∨ .up ∈ ops then canonicalize ops else ops)

/-! ### evaluation, paths.py:57-93 -/

/-- What the evaluator sees of the elements: `.root`, `.parent`, truth value, `_index(name)` and `.children`
(flatland/schema/base.py:380-405; flatland/schema/containers.py:282-287, 877-878; flatland/schema/scalars.py:120-121). -/
structure Graph (N : Type) where
  root : N → N
  parent : N → Option N
  truthy : N → Bool
  index : N → Option PStr → Except PyErr N
  children : N → List N

/-- `except (LookupError, TypeError)`, paths.py:74 -/
def PyErr.isLookup : PyErr → Bool
  | .lookup | .key | .index | .type => true
  | _ => false

/-- How the inner loop over the operations ends for one context: an exception, `break` without a result,
`break` after queueing children, or running to its end. [schema/paths.py:62-92] -/
inductive Outcome (N : Type)
  | raised (e : PyErr)
  | missed
  | spread (ops : List Op) (els : List N)
  | found (el : N)

/-- The inner loop, paths.py:62-92. -/
def runOps {N} (g : Graph N) (strict : Bool) : List Op → N → Outcome N
  | [], el => .found el
  | .top :: ops, el => runOps g strict ops (g.root el)
  | .up :: ops, el => match g.parent el with
    | some p => if g.truthy p then runOps g strict ops p else runOps g strict ops el
    | .none => runOps g strict ops el
  | .here :: ops, el => runOps g strict ops el
  | .name n :: ops, el => match g.index el n with
    | .ok c => runOps g strict ops c
    | .error e => if e.isLookup then (if strict then .raised .lookup else .missed) else .raised e
  | .slice a b c :: ops, el => .spread ops (pySlice (g.children el) a b c)

/-- The outer loop over the growing list of contexts, paths.py:61-93; the first argument bounds the number of contexts
visited, `none` = not finished within the bound. -/
def evalLoop {N} (g : Graph N) (strict : Bool) : Nat → List (List Op × N) → List N → Option (Except PyErr (List N))
  | _, [], found => some (.ok found)
  | 0, _ :: _, _ => .none
  | n + 1, (ops, el) :: rest, found =>
    match runOps g strict ops el with
    | .raised e => some (.error e)
    | .missed => evalLoop g strict n rest found
    | .spread ops' els => evalLoop g strict n (rest ++ els.map fun c => (ops', c)) found
    | .found x => evalLoop g strict n rest (found ++ [x])

/-- `Element.find(..., single=True)` on the matches, base.py:526-536 (`none` = Python's `None`). -/
def findSingle {N} (strict : Bool) (results : List N) : Except PyErr (Option N) :=
  match results with
  | [] => .ok .none
  | x :: xs => if xs ≠ [] ∧ strict = true then .error .lookup else .ok (some x)

/-! ### the expression cache, paths.py:38-48 -/

/-- What `pathexpr` hands out: a compiled expression, or the builtin function `compile` (paths.py:48). -/
inductive Compiled
  | expr (text : PStr) (ops : List Op)
  | builtin
  deriving DecidableEq

/-- `max_cache_size`, paths.py:9 -/
def maxCache : Nat := 1024

/-- `pathexpr(expr)` on the current content of the cache. [schema/paths.py:38-48] -/
def pathexpr [Runtime] (cache : List (PStr × Compiled)) (t : PStr) :
    List (PStr × Compiled) × Except PyErr Compiled :=
  match cache.lookup t with
  | some c => (cache, .ok c)
  | .none => match tokenize t with
    | .error e => (cache, .error e)
    | .ok ops => if cache.length < maxCache then (cache ++ [(t, .expr t ops)], .ok (.expr t ops)) else (cache, .ok .builtin)

end Flatland
