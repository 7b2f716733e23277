import Verif.Model.Mappings
/-! Reading from Dict and SparseDict, and what `setdefault` returns. -/
namespace Flatland
variable {K V E : Type} [DecidableEq K]

/-- `m.get(key, default)`: the default is never used, also not by SparseDict, which inherits the method [schema/containers.py:801-807] -/
def mapGetChild (d : PyDict K E) (k : K) (_default : Option V) : Except PyErr E :=
  match dictGet d k with
  | .none => .error .key
  | some e => .ok e

/-- `m.may_contain(key)`: Mapping (containers.py:764-766), SparseDict (containers.py:1138-1139) -/
def mayContain (c : MapClass K V E) (d : PyDict K E) (k : K) : Bool :=
  match c.mode with
  | .full => (dictGet d k).isSome
  | _ => (dictGet d k).isSome || (fieldFor c k).isSome

/-- What `setdefault` returns: the value of a child (`some`), or the default as it was given (`none`).
[schema/containers.py:797-799, 1206-1218] -/
def setdefaultResult (c : MapClass K V E) (d : PyDict K E) (k : K) (dflt : Arg V E) : Except PyErr (Option E) :=
  match (mapSetdefault c d k dflt).2 with
  | .error er => .error er
  | .ok () => match fieldFor c k, dictGet d k with
    | some f, some e => if f.isEmpty e then .ok .none else .ok (some e)
    | _, _ => .ok .none

end Flatland
