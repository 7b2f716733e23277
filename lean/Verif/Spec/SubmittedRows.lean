import Verif.Spec.Choices
import Verif.Spec.SubmittedDates
/-! When a submitted form with dates and joined strings in rows and SparseDicts is valid (C97). -/
namespace Flatland.Spec
open Flatland
variable [Runtime]

/-- a class known by its attributes only -/
def stub (f : RSchema) : Schema := .scalar f.hdr (stringType false)

/-- what the keys of a submission can address directly below a class: the fields of a Dict or a Compound, by name, and the rows of a List -/
def outline : RSchema → Schema
  | .plain s => s
  | .joined h _ _ => .scalar h (stringType false)
  | .compound h _ fs => .dict h .full .subset fs
  | .dict h mode po fs => .dict h mode po (fs.map stub)
  | .list h prune max m => .list h prune max (stub m)

/-- the schema of a part -/
def rPartSchema : RSchema → Step → Option RSchema
  | .plain s, a => (partSchema s a).map .plain
  | .compound _ _ fs, .field i => (fs[i]?).map .plain
  | .dict _ _ _ fs, .field i => fs[i]?
  | .list _ _ _ m, .row _ => some m
  | _, _ => .none

/-- The part of a form that a way down ends at: its schema, what is submitted for it, and its position in the form after the submission (see `PartOf`). -/
inductive RPartOf (sep : PStr) : RSchema → List FPair → List Step → RSchema → List FPair → Pos → Prop
  | here {s ps} : RPartOf sep s ps [] s ps []
  | down {s ps a s' ps' j way s'' ps'' pos} : rPartSchema s a = some s' → PartThere sep ps (outline s) a j → Handed (LeadsInto sep (outline s) a) ps ps' →
      RPartOf sep s' ps' way s'' ps'' pos → RPartOf sep s ps (a :: way) s'' ps'' (j :: pos)

/-- what is submitted for a field: the first value among the pairs that concern it whose key ends with its name -/
def GivenTo (h : Hdr) (ps : List FPair) (v : Option PStr) : Prop := FirstValue (fun k _ => k = h.name) ps v

/-- what is submitted for a part of a date: the first value among the pairs that concern the date whose key leads to the part and ends with its name -/
def GivenToPart (sep : PStr) (date : RSchema) (i : Nat) (h : Hdr) (ps : List FPair) (v : Option PStr) : Prop :=
  FirstValue (fun k v => LeadsInto sep (outline date) (.field i) k v h.name) ps v

/-- Scalars, JoinedStrings, DateYYYYMMDDs and Arrays of scalars in Dicts, SparseDicts and Lists, of any nesting; Lists have no Arrays as rows. -/
inductive DateRows : RSchema → Prop
  | plain {s} : ChoiceForm s → DateRows (.plain s)
  | joined {h c m} : DateRows (.joined h c m)
  | date {h hy hm hd wy wm wd} :
      DateRows (.compound h dateText [.scalar hy (integerType true wy), .scalar hm (integerType true wm), .scalar hd (integerType true wd)])
  | dict {h mode po fs} : (∀ f ∈ fs, DateRows f) → DateRows (.dict h mode po fs)
  | list {h prune max m} : DateRows m → (∀ h' prune' m', m ≠ .plain (.array h' prune' m')) → DateRows (.list h prune max m)

/-- a Dict or a List, not a date or an Array -/
def MereContainer : RSchema → Prop
  | .plain (.dict ..) | .plain (.list ..) | .dict .. | .list .. => True
  | _ => False

/-- An Array with these choices is valid, whatever its text is, and so are the choices. -/
def FineChoices (rules : Pos → RichField) (tests : Pos → List (PyVal → PStr → Bool)) (p : Pos) (t : ScalarType) (cs : List (Option PStr)) : Prop :=
  (∀ text, FineField (rules p).optional (cs = []) (tests p) (.list (cs.map fun v => (afterSubmission t .fresh v).value)) text) ∧
  ∀ (j : Nat) v, cs[j]? = some v → FineScalar (rules (p ++ [j])) (tests (p ++ [j])) (afterSubmission t .fresh v)

end Flatland.Spec
