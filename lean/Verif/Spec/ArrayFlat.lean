import Verif.Spec.SetFlat
/-! Specification: what an Array takes from flat data (C15). -/
namespace Flatland.Spec
open Flatland

/-- What an Array makes of one submitted value. -/
inductive Taken
  | nothing
  | blank
  | value (v : PStr)
  deriving DecidableEq

/-- with pruning, empty values are passed over -/
def takeValue (prune : Bool) (v : PStr) : Taken := if prune = true ∧ v = [] then .nothing else .value v

/-- What the pair `k`, `v` gives to an Array called `name` whose members are called `child`.
* Both named: the value of `name sep child` is taken.  Any other key that goes on after `name sep` gives a new, unset member, and so
  does the name followed by a line break.
* Array named, members not: the value of `name` is taken, and that of `name sep`.
* Array unnamed, members named: the value of `child` is taken.
* Both unnamed: the value of the empty key is taken, and every other key gives a new, unset member. -/
def takenFrom (sep : PStr) (name child : Option PStr) (prune : Bool) (k v : PStr) : Taken :=
  match name, child with
  | some n, some c =>
    if k = n ++ sep ++ c then takeValue prune v
    else if (n ++ sep <+: k ∧ k ≠ n ++ sep) ∨ k = n ++ ['\n'] then .blank
    else .nothing
  | some n, .none => if k = n ∨ k = n ++ sep then takeValue prune v else .nothing
  | .none, some c => if k = c then takeValue prune v else .nothing
  | .none, .none => if k = [] then takeValue prune v else .blank

/-- the member made of what was taken -/
def memberOf [Runtime] (hm : Hdr) (t : ScalarType) : Taken → Option Elem
  | .nothing => .none
  | .blank => some (.scalar hm.name .fresh)
  | .value v => some (.scalar hm.name (scalarSet t .fresh (.str v)).1)

end Flatland.Spec
