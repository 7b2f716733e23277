import Verif.Model.RichRules
import Verif.Spec.RichValidation
import Verif.Spec.Records
/-! The content of a form with Compounds and JoinedStrings, and validators that look at nothing else (C99). -/
namespace Flatland.Spec
open Flatland

mutual
/-- same names, same structure, and same text and value of every scalar, Compound and JoinedString; raw input may differ -/
def SameRich : NElem → NElem → Prop
  | .absent, .absent => True
  | .scalar n st, .scalar n' st' => n = n' ∧ SameData st st'
  | .dict n ks, .dict n' ks' | .list n ks, .list n' ks' | .array n ks, .array n' ks' => n = n' ∧ SameRichAll ks ks'
  | .compound n u v ks, .compound n' u' v' ks' => n = n' ∧ u = u' ∧ v = v' ∧ SameRichAll ks ks'
  | .joined n t ks, .joined n' t' ks' => n = n' ∧ t = t' ∧ SameRichAll ks ks'
  | _, _ => False
/-- see `SameRich` -/
def SameRichAll : List NElem → List NElem → Prop
  | [], [] => True
  | k :: ks, k' :: ks' => SameRich k k' ∧ SameRichAll ks ks'
  | _, _ => False
end

/-- neither the decision nor the message of the validator depends on anything but the content of the form -/
def RichContentRule (r : RichRule) : Prop :=
  ∀ e e', SameRich e e' → ∀ p, r.decide e p = r.decide e' p ∧ r.noter e p = r.noter e' p

/-- all validators of the form are such -/
def RichContentRules (rules : Pos → RichField) : Prop := ∀ p, ∀ r ∈ (rules p).validators ++ (rules p).descent, RichContentRule r

/-- the validators of the package that do not change the element, with messages that do not depend on the raw input either -/
inductive RichPackageRule [Runtime] (repr : PStr → PStr) : RichRule → Prop
  | reading {f noter} (h : ∀ e e', SameRich e e' → ∀ p, noter e p = noter e' p) : RichPackageRule repr (richReadingRule repr f noter)
  | valuesEqual {paths label noter} (h : ∀ e e', SameRich e e' → ∀ p, noter e p = noter e' p)
      (hl : ∀ e e', SameRich e e' → ∀ n, label e n = label e' n) : RichPackageRule repr (richValuesEqual paths label noter)
  | unisEqual {paths label noter} (h : ∀ e e', SameRich e e' → ∀ p, noter e p = noter e' p)
      (hl : ∀ e e', SameRich e e' → ∀ n, label e n = label e' n) : RichPackageRule repr (richUnisEqual repr paths label noter)
  | notDuplicated {noter} (h : ∀ e e', SameRich e e' → ∀ p, noter e p = noter e' p) : RichPackageRule repr (richNotDuplicated repr noter)

end Flatland.Spec
