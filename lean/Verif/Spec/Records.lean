import Verif.Spec.RichTree
import Verif.Spec.RichValues
/-
Specification for C90: a record is kept as the value of a form; to edit it, a form is set to the value, shown on a page, and made again of what the
page sends.  Models of both halves are there – values of forms with dates and joined strings in Model/RichValues.lean, what pages send
in Model/RichTree.lean – and here they are put together.
-/
namespace Flatland.Spec
open Flatland

variable [Runtime]

/-- the text that a DateYYYYMMDD makes of its children -/
def dateShown (doStrip : Bool) (ks : List Elem) : PStr := match dateView doStrip (ks.map Elem.state) with
  | .ok r => r.1
  | .error _ => []

mutual
/-- The class of a form, as Model/RichTree.lean has it; `mn` is the name of the members of its joined strings (usually they have none).  Arrays of dates
or joined strings have no counterpart there. -/
def pageClass (mn : Option PStr) : VSchema → RSchema
  | .plain s => .plain s
  | .joined h c => .joined h c mn
  | .date h st fs => .compound h (dateShown st) (fs.map fun f => .scalar f.1 f.2)
  | .dict h mode pol fs => .dict h mode pol (pageClasses mn fs)
  | .list h prune max m => .list h prune max (pageClass mn m)
  | .array h prune _ => .plain (.array h prune (.scalar h (stringType true)))
/-- see `pageClass` -/
def pageClasses (mn : Option PStr) : List VSchema → List RSchema
  | [] => []
  | f :: fs => pageClass mn f :: pageClasses mn fs
end

mutual
/-- no Arrays of dates or joined strings (Arrays of scalars are among the `plain` classes) -/
def NoRichArrays : VSchema → Prop
  | .dict _ _ _ fs => NoRichArraysAll fs
  | .list _ _ _ m => NoRichArrays m
  | .array .. => False
  | _ => True
/-- see `NoRichArrays` -/
def NoRichArraysAll : List VSchema → Prop
  | [] => True
  | f :: fs => NoRichArrays f ∧ NoRichArraysAll fs
end

mutual
/-- the form, as Model/RichTree.lean has it -/
def pageForm (mn : Option PStr) : VSchema → VElem → RElem
  | .plain _, .plain e => .plain e
  | .joined .., .joined n c ms => .joined n c mn ms
  | .date _ st fs, .date n _ sts => .compound n (dateShown st) (List.zipWith (fun f s => .scalar f.1.name s) fs sts)
  | .dict _ _ _ fs, .dict n ks => .dict n (pageForms mn fs ks)
  | .list _ _ _ m, .list n ks => .list n (ks.map (pageForm mn m))
  | _, _ => .plain .absent
/-- see `pageForm` -/
def pageForms (mn : Option PStr) : List VSchema → List VElem → List RElem
  | f :: fs, k :: ks => pageForm mn f k :: pageForms mn fs ks
  | _, _ => []
end

mutual
/-- and back -/
def formOfPage : VSchema → RElem → VElem
  | .plain _, .plain e => .plain e
  | .joined .., .joined n c _ ms => .joined n c ms
  | .date _ st _, .compound n _ ks => .date n st (ks.map Elem.state)
  | .dict _ _ _ fs, .dict n ks => .dict n (formsOfPage fs ks)
  | .list _ _ _ m, .list n ks => .list n (ks.map (formOfPage m))
  | _, _ => .plain .absent
/-- see `formOfPage` -/
def formsOfPage : List VSchema → List RElem → List VElem
  | f :: fs, k :: ks => formOfPage f k :: formsOfPage fs ks
  | _, _ => []
end

mutual
/-- Every scalar – those of dates, too – has the same value and text after being set from its own text, and every joined string the same members (blanks inside a
pruning List are not sent: a scalar must then have no value, and a joined string no members). -/
def TextsRead (p : Bool) : VSchema → VElem → Prop
  | .plain s, .plain e => EachScalar (ReadsBack SameData) p s e
  | .joined _ c, .joined _ _ ms =>
    dataOf ms = dataOf (if p && joinedText c ms == [] then [] else (joinedSet c [] (.str (joinedText c ms))).1)
  | .date _ _ fs, .date _ _ sts => ∀ x ∈ fs.zip sts, ReadsBack SameData p x.1.2 x.2
  | .dict _ _ _ fs, .dict _ ks => TextsReadAll p fs ks
  | .list _ prune _ m, .list _ ks => ∀ k ∈ ks, TextsRead (p || prune) m k
  | _, _ => True
/-- see `TextsRead` -/
def TextsReadAll (p : Bool) : List VSchema → List VElem → Prop
  | f :: fs, k :: ks => TextsRead p f k ∧ TextsReadAll p fs ks
  | _, _ => True
end

/-- The page sends what the form shows: all pairs of `flatten()`, or only those of the scalars and joined strings; in any order that keeps pairs of the
same key in theirs. -/
def SendsForm (sep : PStr) (page : RElem → List (PStr × PStr)) : Prop :=
  ∀ r, (∀ k, valuesFor k (page r) = valuesFor k (rFlatten sep r)) ∨ (∀ k, valuesFor k (page r) = valuesFor k (carrying sep [] r))

/-- The record is edited without a change, `n` times: its value is loaded into a new form, that is shown, and the form made of what the page sends is
kept instead. -/
def editedFor (sep : PStr) (mn : Option PStr) (page : RElem → List (PStr × PStr)) (s : VSchema) : Nat → VElem → Except PyErr VElem
  | 0, e => .ok e
  | n + 1, e => match vValue e with
    | .error er => .error er
    | .ok v => match vSet s v with
      | .error er => .error er
      | .ok (e₁, _) => match rFromFlat sep (pageClass mn s) (page (pageForm mn s e₁)) with
        | .error er => .error er
        | .ok r => editedFor sep mn page s n (formOfPage s r)

end Flatland.Spec
