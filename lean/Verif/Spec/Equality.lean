import Verif.Model.Py
/-! Specification: well-formed values. -/
namespace Flatland.Spec
open Flatland

mutual
/-- A dict has no key twice, at any depth (in Python it cannot; as a list of pairs it could). -/
def WfVal : PyVal → Prop
  | .list xs => WfList xs
  | .dict kvs => (kvs.map Prod.fst).Nodup ∧ WfDict kvs
  | _ => True
/-- all members are well-formed -/
def WfList : List PyVal → Prop
  | [] => True
  | x :: xs => WfVal x ∧ WfList xs
/-- all dict values are well-formed -/
def WfDict : List (PStr × PyVal) → Prop
  | [] => True
  | (_, v) :: kvs => WfVal v ∧ WfDict kvs
end

end Flatland.Spec
