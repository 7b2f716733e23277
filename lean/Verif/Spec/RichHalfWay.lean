import Verif.Spec.RichEdits
import Verif.Spec.HalfWay
/-! What is said about calls that raise in forms with DateYYYYMMDDs and JoinedStrings (C96). -/
namespace Flatland.Spec
open Flatland

/-- The values that a JoinedString's `set` makes members of: the pieces of a text, the items of anything else. -/
def PiecesOf (c : JoinedCfg) : PyVal → List PyVal → Prop
  | .str s, vs => (∃ f, c.regex = some f ∧ vs = (f s).map .str) ∨ (c.regex = none ∧ c.separator ≠ [] ∧ vs = (pySplit c.separator s).map .str)
  | v, vs => itemsOf v = some vs

/-- There are no such values: the text cannot be split, or what is no text cannot be iterated. -/
def NoPieces (c : JoinedCfg) : PyVal → Prop
  | .str _ => c.regex = none ∧ c.separator = []
  | v => itemsOf v = none

end Flatland.Spec
