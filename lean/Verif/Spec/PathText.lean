import Verif.Spec.Paths
/-!
The grammar of paths as they are written, and what a written path says, step by step.
-/
namespace Flatland.Spec
open Flatland

/-- one move through a tree: to the root, to the parent, nowhere, to a child by name (`none`: the empty step of `a//b`), to all children of a
Python slice, to the `n`-th child from the end -/
inductive Move
  | top | up | here
  | name (n : Option PStr)
  | slice (a b c : Option Int)
  | fromEnd (n : Nat)

/-- something in brackets, as written: `[12]`, `[-12]`, `[a:b]`, `[a:b:c]`, `[word]` -/
inductive Bracket
  | index (ds : PStr)
  | back (ds : PStr)
  | slice (a b : PStr)
  | stride (a b c : PStr)
  | word (s : PStr)

/-- what is written between the brackets -/
def Bracket.inner : Bracket → PStr
  | .index ds => ds
  | .back ds => '-' :: ds
  | .slice a b => a ++ ':' :: b
  | .stride a b c => a ++ ':' :: (b ++ ':' :: c)
  | .word s => s

/-- What a bracket says. A stop or a stride of zero says nothing here (see C19). -/
inductive Bracket.Says [Runtime] : Bracket → Move → Prop
  | index {ds n} : Digits ds n → Says (.index ds) (.name (some ds))
  | back {ds n} : Digits ds n → 0 < n → Says (.back ds) (.fromEnd n)
  | slice {sa sb a b} : SpellsOpt sa a → SpellsOpt sb b → b ≠ some 0 → Says (.slice sa sb) (.slice a b none)
  | stride {sa sb sc a b c} : SpellsOpt sa a → SpellsOpt sb b → SpellsOpt sc c → b ≠ some 0 → c ≠ some 0 →
      Says (.stride sa sb sc) (.slice a b c)

/-- the start of a step, as written: an escaped name, a plain name with bracketed parts that belong to it, `.`, `..`, or nothing -/
inductive Head
  | name (n : PStr)
  | plain (n : PStr) (parts : List PStr)
  | here | up | blank

/-- a text in brackets -/
def inBrackets (s : PStr) : PStr := '[' :: s ++ [']']

/-- the start of a step as text -/
def Head.text : Head → PStr
  | .name n => escape n
  | .plain n parts => n ++ (parts.map inBrackets).flatten
  | .here => ['.']
  | .up => ['.', '.']
  | .blank => []

/-- Such a bracketed part belongs to the name: it is empty or has a character that no slice has. -/
def NamePart [Runtime] (s : PStr) : Prop :=
  ']' ∉ s ∧ '\\' ∉ s ∧ (s = [] ∨ ∃ c ∈ s, digit c = none ∧ c ≠ '-' ∧ c ≠ ':')

/-- a name that needs no escaping -/
def PlainName (n : PStr) : Prop := n ≠ [] ∧ ∀ c ∈ n, c ∉ ['/', '.', '[', ']', '\\']

/-- What the start of a step says; `atEnd`: nothing follows it in the path. A name that ends in a backslash can only stand at the end. -/
inductive Head.Says [Runtime] (atEnd : Bool) : Head → List Move → Prop
  | name {n} : n ≠ [] → (atEnd = false → n.getLast? ≠ some '\\') → Says atEnd (.name n) [.name (some n)]
  | plain {n parts} : PlainName n → (∀ s ∈ parts, NamePart s) →
      Says atEnd (.plain n parts) [.name (some (n ++ (parts.map inBrackets).flatten))]
  | here : Says atEnd .here [.here]
  | up : Says atEnd .up [.up]
  | blank : Says atEnd .blank []

/-- a step: its start, and brackets -/
structure PStep where
  head : Head
  brackets : List Bracket

/-- nothing at all, as between the slashes of `a//b` -/
def PStep.isBlank : PStep → Bool
  | ⟨.blank, []⟩ => true
  | _ => false

/-- a step as text -/
def PStep.text (s : PStep) : PStr := s.head.text ++ (s.brackets.map fun b => inBrackets b.inner).flatten

/-- the move leads to any number of elements -/
def Move.Many : Move → Prop
  | .slice .. => True
  | .fromEnd _ => True
  | _ => False

/-- What a list of brackets says.  Words in brackets after a slice are a name, brackets included. -/
inductive SaysAll [Runtime] : List Bracket → List Move → Prop
  | nil : SaysAll [] []
  | cons {b m bs ms} : b.Says m → SaysAll bs ms → SaysAll (b :: bs) (m :: ms)
  | words {b m w} {ws : List PStr} {bs ms} : b.Says m → m.Many → NamePart w → (∀ s ∈ ws, NamePart s) → SaysAll bs ms →
      SaysAll (b :: .word w :: (ws.map .word ++ bs)) (m :: .name (some (inBrackets w ++ (ws.map inBrackets).flatten)) :: ms)

/-- steps joined with slashes -/
def stepsText : List PStep → PStr
  | [] => []
  | [s] => s.text
  | s :: ss => s.text ++ '/' :: stepsText ss

/-- What steps joined with slashes say: one after the other. A blank step says "the child without a name", but nothing at the end of a path. -/
inductive StepsSay [Runtime] : List PStep → List Move → Prop
  | nil : StepsSay [] []
  | last {s ms bs} : s.head.Says s.brackets.isEmpty ms → SaysAll s.brackets bs → StepsSay [s] (ms ++ bs)
  | cons {s ss ms bs rest} : ss ≠ [] → s.isBlank = false → s.head.Says false ms → SaysAll s.brackets bs → StepsSay ss rest →
      StepsSay (s :: ss) (ms ++ bs ++ rest)
  | blank {s ss rest} : ss ≠ [] → s.isBlank = true → StepsSay ss rest → StepsSay (s :: ss) (.name none :: rest)

/-- What a path says: a slash in front starts at the root; without it the path must not start with a blank step (that would be a slash). -/
inductive PathSays [Runtime] : PStr → List Move → Prop
  | rel {s ss ms} : s.isBlank = false → StepsSay (s :: ss) ms → PathSays (stepsText (s :: ss)) ms
  | empty : PathSays [] []
  | abs {ss ms} : StepsSay ss ms → PathSays ('/' :: stepsText ss) (.top :: ms)

/-- The operation carries out the move: slices select the same from every sequence. -/
def Does : Move → Op → Prop
  | .top, op => op = .top
  | .up, op => op = .up
  | .here, op => op = .here
  | .name n, op => op = .name n
  | .slice a b c, op => ∃ a' b' c', op = .slice a' b' c' ∧ ∀ {α : Type} (xs : List α), pySlice xs a' b' c' = pySlice xs a b c
  | .fromEnd n, op => ∃ a b, op = .slice a b none ∧
      ∀ {α : Type} (xs : List α), pySlice xs a b none = if n ≤ xs.length then xs[xs.length - n]?.toList else []

/-- move by move -/
def DoesAll : List Move → List Op → Prop
  | [], [] => True
  | m :: ms, op :: ops => Does m op ∧ DoesAll ms ops
  | _, _ => False

/-- where the moves lead, branch by branch -/
def walk {N} (g : Graph N) : List Move → N → List (Except PyErr N)
  | [], el => [.ok el]
  | .top :: ms, el => walk g ms (g.root el)
  | .up :: ms, el => walk g ms ((g.parent el).getD el)
  | .here :: ms, el => walk g ms el
  | .name n :: ms, el => match g.index el n with
    | .ok c => walk g ms c
    | .error e => [.error e]
  | .slice a b c :: ms, el => (pySlice (g.children el) a b c).flatMap (walk g ms)
  | .fromEnd n :: ms, el =>
    if n ≤ (g.children el).length then ((g.children el)[(g.children el).length - n]?.toList).flatMap (walk g ms) else []

/-- No `..` climbs out of a slice: after a slice, each `..` is preceded by a name of its own.
(`none`: no slice so far; `some k`: `k` names since the last slice are not yet undone.) -/
def movesMatched : Option Nat → List Move → Bool
  | _, [] => true
  | d, .up :: ms => match d with
    | none => movesMatched none ms
    | some 0 => false
    | some (k + 1) => movesMatched (some k) ms
  | d, .name _ :: ms => movesMatched (d.map (· + 1)) ms
  | _, .slice .. :: ms => movesMatched (some 0) ms
  | _, .fromEnd _ :: ms => movesMatched (some 0) ms
  | _, .top :: ms => movesMatched none ms
  | d, .here :: ms => movesMatched d ms

/-! ### simplification -/

/-- one simplification: a step down and up again is no step; up from the root is the root -/
inductive Reduce1 : List Op → List Op → Prop
  | name (a b n) : Reduce1 (a ++ .name n :: .up :: b) (a ++ b)
  | slice (a b x y z) : Reduce1 (a ++ .slice x y z :: .up :: b) (a ++ b)
  | top (a b) : Reduce1 (a ++ .top :: .up :: b) (a ++ .top :: b)

/-- any number of simplifications -/
inductive Reduces : List Op → List Op → Prop
  | refl (l) : Reduces l l
  | step {l m r} : Reduce1 l m → Reduces m r → Reduces l r

/-- Nothing is left to simplify. -/
def Irreducible (l : List Op) : Prop := ∀ r, ¬ Reduce1 l r

/-- The simplified form: `.` is left out (unless it is the whole path), the rest simplified as far as possible. -/
def Simplifies (l r : List Op) : Prop :=
  (l = [.here] ∧ r = [.here]) ∨ (l ≠ [.here] ∧ Reduces (l.filter (· ≠ .here)) r ∧ Irreducible r)

end Flatland.Spec
