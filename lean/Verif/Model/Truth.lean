import Verif.Model.RichValues
import Verif.Model.Nodes
/-
Model of `bool(element)`: Scalar defines `__bool__` (flatland/schema/scalars.py:134-136); Dicts, Lists and Arrays leave it to `dict` and `list`
(flatland/schema/containers.py:139, 737); in a Compound and a JoinedString, which are both, the Scalar's comes first in the MRO
(flatland/schema/compound.py:73, 247).
-/
namespace Flatland
variable [Runtime]

/-- `bool(el)`; reading `u` or `value` of a DateYYYYMMDD may raise [schema/scalars.py:134-136, schema/containers.py:139, 737, schema/compound.py:73, 147-159, 247, 322-330] -/
def vTruthy : VElem → Except PyErr Bool
  | .plain e => .ok (nodeTruthy e ⟨[], false⟩)
  | .joined _ c ms => .ok (!(joinedText c ms).isEmpty && truthy (.str (joinedText c ms)))
  | .date _ doStrip sts => match dateView doStrip sts with
    | .error er => .error er
    | .ok x => .ok (!x.1.isEmpty && truthy x.2)
  | .dict _ ks => .ok (ks.any VElem.present)
  | .list _ ks => .ok (!ks.isEmpty)
  | .array _ ks => .ok (!ks.isEmpty)

end Flatland
