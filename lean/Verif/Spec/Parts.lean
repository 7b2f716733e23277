import Verif.Spec.Submissions
/-! What the parts of a form – the fields of Dicts and the rows of Lists, at any depth – get from a submission (C80). -/
namespace Flatland.Spec
open Flatland

/-- One step down in a form: to a field of a Dict (by its place in the declaration), or to a row of a List by the number it has *in the
submitted keys*. -/
inductive Step
  | field (i : Nat)
  | row (i : Nat)
  deriving DecidableEq, Repr

/-- the schema of a part -/
def partSchema : Schema → Step → Option Schema
  | .dict _ _ _ fs, .field i => fs[i]?
  | .list _ _ _ m, .row _ => some m
  | _, _ => .none

section
variable [Runtime]

/-- A pair of a submission concerns a part: `key` leads to it, and within it goes on as `rest` (`none`: it ends at the part itself).
* To a field of a Dict leads what starts with the Dict's name, the separator and the field's name.
* To row `i` of a List leads the List's name, the separator and digits that denote `i`, followed by nothing or by the separator and
  the rest; if the List prunes, only with a value that is not empty. -/
def LeadsInto (sep : PStr) : Schema → Step → Option PStr → PStr → Option PStr → Prop
  | .dict h _ _ fs, .field i, key, _, rest =>
    ∃ f fn k, fs[i]? = some f ∧ f.name = some fn ∧ fn <+: k ∧ key = some (fieldPrefix sep h.name ++ k) ∧ rest = some k
  | .list h prune _ _, .row i, key, v, rest =>
    (prune = true → v ≠ []) ∧ ∃ k, key = some k ∧ Mentions sep h.name k i rest
  | _, _, _, _, _ => False

/-- the pairs that concern a part, in their order, each with the rest of its key -/
inductive Handed (R : Option PStr → PStr → Option PStr → Prop) : List FPair → List FPair → Prop
  | nil : Handed R [] []
  | take {k v r ps l} : R k v r → Handed R ps l → Handed R ((k, v) :: ps) ((r, v) :: l)
  | skip {k v ps l} : (∀ r, ¬ R k v r) → Handed R ps l → Handed R ((k, v) :: ps) l

/-- exactly `j` of the numbers below `i` have the property -/
def ExactlyBelow (P : Nat → Prop) (i j : Nat) : Prop :=
  ∃ l : List Nat, l.Pairwise (· < ·) ∧ (∀ x, x ∈ l ↔ x < i ∧ P x) ∧ l.length = j

/-- The submission makes row `i`: a pair leads to it or, if the List does not prune, to a later one. -/
def RowMade (sep : PStr) (s : Schema) (prune : Bool) (ps : List FPair) (i : Nat) : Prop :=
  ∃ kv ∈ ps, ∃ m r, LeadsInto sep s (.row m) kv.1 kv.2 r ∧ if prune then i = m else i ≤ m

/-- After the submission the part is there, as child number `j`.
* A field of a Dict: it is one of those a new Dict has, or a pair leads to it.  It has its place.
* A row of a List: it is made by the submission, and `j` rows before it are; at most `max` rows are kept. -/
def PartThere (sep : PStr) (ps : List FPair) : Schema → Step → Nat → Prop
  | .dict h mode po fs, .field i, j =>
    j = i ∧ ∃ f, fs[i]? = some f ∧ (autoField mode f = true ∨ ∃ kv ∈ ps, ∃ r, LeadsInto sep (.dict h mode po fs) (.field i) kv.1 kv.2 r)
  | .list h prune max m, .row i, j =>
    RowMade sep (.list h prune max m) prune ps i ∧ ExactlyBelow (RowMade sep (.list h prune max m) prune ps) i j ∧ j < max
  | _, _, _ => False

/-- The part of a form that a way down ends at: its schema, what is submitted for it, and its position in the form after the submission. -/
inductive PartOf (sep : PStr) : Schema → List FPair → List Step → Schema → List FPair → Pos → Prop
  | here {s ps} : PartOf sep s ps [] s ps []
  | down {s ps a s' ps' j way s'' ps'' pos} : partSchema s a = some s' → PartThere sep ps s a j → Handed (LeadsInto sep s a) ps ps' →
      PartOf sep s' ps' way s'' ps'' pos → PartOf sep s ps (a :: way) s'' ps'' (j :: pos)

/-- A pair of the whole submission leads down a way: it leads into each part on it. -/
inductive Leads (sep : PStr) : Schema → List Step → Option PStr → PStr → Option PStr → Prop
  | here {s k v} : Leads sep s [] k v k
  | down {s a s' way k v r r'} : partSchema s a = some s' → LeadsInto sep s a k v r → Leads sep s' way r v r' → Leads sep s (a :: way) k v r'

/-- the value of the first pair with the property, if there is one -/
inductive FirstValue (P : Option PStr → PStr → Prop) (ps : List FPair) : Option PStr → Prop
  | none : (∀ kv ∈ ps, ¬ P kv.1 kv.2) → FirstValue P ps .none
  | some {before after k v} : ps = before ++ (k, v) :: after → P k v → (∀ kv ∈ before, ¬ P kv.1 kv.2) → FirstValue P ps (.some v)

/-- What was submitted for the field that a way ends at: the first value whose key leads down the way and ends with the field's name. -/
def SubmittedAt (sep : PStr) (s : Schema) (ps : List (PStr × PStr)) (way : List Step) (h : Hdr) (v : Option PStr) : Prop :=
  FirstValue (fun k v => Leads sep s way k v h.name) (texts ps) v

/-- The usual key of the part a way ends at: the names on the way joined with the separator, with a row's number (in decimal) after the
name of the List.  It is `none` for an unnamed part without a List above it. -/
inductive KeyOf (sep : PStr) : Schema → List Step → Schema → Option PStr → Prop
  | here {s : Schema} : KeyOf sep s [] s s.name
  | field {h : Hdr} {mode : DictMode} {po : Policy} {fs : List Schema} {i : Nat} {f s' : Schema} {way : List Step} {key : PStr} :
      fs[i]? = some f → f.name ≠ none → KeyOf sep f way s' (some key) →
      KeyOf sep (.dict h mode po fs) (.field i :: way) s' (some (fieldPrefix sep h.name ++ key))
  | member {h : Hdr} {prune : Bool} {max : Nat} {m s' : Schema} {i : Nat} {way : List Step} :
      KeyOf sep m way s' none → KeyOf sep (.list h prune max m) (.row i :: way) s' (some (childPrefix sep h.name ++ decimal i))
  | row {h : Hdr} {prune : Bool} {max : Nat} {m s' : Schema} {i : Nat} {way : List Step} {key : PStr} :
      key ≠ [] → KeyOf sep m way s' (some key) →
      KeyOf sep (.list h prune max m) (.row i :: way) s' (some (childPrefix sep h.name ++ decimal i ++ (sep ++ key)))

/-- Scalars in Dicts, SparseDicts and Lists, of any nesting. -/
inductive RowForm : Schema → Prop
  | scalar (h : Hdr) (t : ScalarType) : RowForm (.scalar h t)
  | dict (h : Hdr) (mode : DictMode) (po : Policy) (fs : List Schema) : (∀ f ∈ fs, RowForm f) → RowForm (.dict h mode po fs)
  | list (h : Hdr) (prune : Bool) (max : Nat) (m : Schema) : RowForm m → RowForm (.list h prune max m)

end
end Flatland.Spec
