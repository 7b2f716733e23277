import Verif.Model.RichNodes
import Verif.Model.RichTree
/-! The elements that `set_flat` fills (Model/RichTree.lean) as path lookup and validation see them (Model/RichNodes.lean, Model/RichValidation.lean). -/
namespace Flatland

/-- `.value` of a DateYYYYMMDD with these parts [schema/compound.py:152-159, 223-233] -/
def dateValueOf [Runtime] (ks : List Elem) : PyVal := match dateView true (ks.map Elem.state) with
  | .ok r => r.2
  | .error _ => .none

mutual
/-- an element without Compounds and JoinedStrings [no code] -/
def plainNodes : Elem → NElem
  | .absent => .absent
  | .scalar n st => .scalar n st
  | .dict n ks => .dict n (plainNodesAll ks)
  | .list n ks => .list n (plainNodesAll ks)
  | .array n ks => .array n (plainNodesAll ks)
/-- see `plainNodes` [no code] -/
def plainNodesAll : List Elem → List NElem
  | [] => []
  | k :: ks => plainNodes k :: plainNodesAll ks
end

mutual
/-- an element with the present text and value of its Compounds, which are DateYYYYMMDDs here, and JoinedStrings [schema/compound.py:147-159, 223-233, 322-330] -/
def nodesOf [Runtime] : RElem → NElem
  | .plain e => plainNodes e
  | .joined n c m ms => .joined n (joinedText c ms) (ms.map (.scalar m))
  | .compound n compose ks => .compound n (compose ks) (dateValueOf ks) (plainNodesAll ks)
  | .dict n ks => .dict n (nodesOfAll ks)
  | .list n ks => .list n (nodesOfAll ks)
/-- see `nodesOf` [schema/compound.py:147-159, 223-233, 322-330] -/
def nodesOfAll [Runtime] : List RElem → List NElem
  | [] => []
  | k :: ks => nodesOf k :: nodesOfAll ks
end

end Flatland
