import Verif.Model.TreeRules
import Verif.Spec.Tree
/-! What it means for validators to depend on the contents of a form only. -/
namespace Flatland.Spec
open Flatland

/-- two elements are the same in all but the raw input: same structure, same names, same text and value of every scalar -/
abbrev SameContent (a b : Elem) : Prop := SameBy SameData a b

/-- the validator does not look at the raw input: it decides the same about, and has the same message for, elements in the same place of
forms with the same content -/
def LooksAtContent (r : FormRule) : Prop :=
  ∀ e e', SameContent e e' → ∀ p, r.decide e p = r.decide e' p ∧ r.noter e p = r.noter e' p

/-- all validators of the form do so -/
def RulesLookAtContent (rules : Pos → FieldRules) : Prop :=
  ∀ p, ∀ r ∈ (rules p).validators ++ (rules p).descent, LooksAtContent r

/-- the validators of the package, with messages that do not depend on the raw input either -/
inductive PackageRule [Runtime] (repr : PStr → PStr) : FormRule → Prop
  | check {c noter} (h : ∀ e e', SameContent e e' → ∀ p, noter e p = noter e' p) : PackageRule repr (checkRule repr c noter)
  | reading {f noter} (h : ∀ e e', SameContent e e' → ∀ p, noter e p = noter e' p) : PackageRule repr (readingRule repr f noter)
  | valuesEqual {paths label noter} (h : ∀ e e', SameContent e e' → ∀ p, noter e p = noter e' p)
      (hl : ∀ e e', SameContent e e' → ∀ n, label e n = label e' n) : PackageRule repr (valuesEqualRule paths label noter)
  | unisEqual {paths label noter} (h : ∀ e e', SameContent e e' → ∀ p, noter e p = noter e' p)
      (hl : ∀ e e', SameContent e e' → ∀ n, label e n = label e' n) : PackageRule repr (unisEqualRule repr paths label noter)
  | notDuplicated {noter} (h : ∀ e e', SameContent e e' → ∀ p, noter e p = noter e' p) :
      PackageRule repr (notDuplicatedRule (sameElement repr) noter)

end Flatland.Spec
