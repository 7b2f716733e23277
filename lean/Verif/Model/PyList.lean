import Verif.Model.Py
/-
Python's list operations (CPython Objects/listobject.c), as functions on Lean lists.  They are not part of /repo; flatland's
sequences call them as `list.append(self, …)` and so on.  Indexes are arbitrary integers.
-/
namespace Flatland

/-- a Python index `xs[i]` for a list of length `len`; `none` = IndexError -/
def pyIndex (len : Nat) (i : Int) : Option Nat :=
  if 0 ≤ i then (if i < len then some i.toNat else .none)
  else if 0 ≤ i + len then some (i + len).toNat else .none

/-- where `list.insert` puts the item: clamped, counted from the end if negative [Python list.insert; used at schema/containers.py:321, 524] -/
def insertPos (len : Nat) (i : Int) : Nat :=
  if i < 0 then (i + len).toNat else min i.toNat len

/-- `xs.insert(i, x)` [Python list.insert; used at schema/containers.py:321, 524] -/
def pyInsert {α} (xs : List α) (i : Int) (x : α) : List α :=
  xs.take (insertPos xs.length i) ++ x :: xs.drop (insertPos xs.length i)

/-- the indexes a slice selects, in the slice's order [Python slices; used at schema/containers.py:336, 486, 495, 511] -/
def sliceIndexes (len : Nat) (a b c : Option Int) : List Nat :=
  let step := c.getD 1
  let start := sliceStart len step a
  let stop := sliceStop len step b
  (List.range (sliceCount start stop step)).map fun (k : Nat) => (start + step * k).toNat

/-- `del xs[i]` for every `i` in a set of indexes [Python del; used at schema/containers.py:511] -/
def eraseIndexes {α} (xs : List α) (is : List Nat) : List α :=
  (List.range xs.length).filterMap fun i => if is.contains i then .none else xs[i]?

/-- `del xs[a:b:c]` [Python del; used at schema/containers.py:511] -/
def pyDelSlice {α} (xs : List α) (a b c : Option Int) : Except PyErr (List α) :=
  if c = some 0 then .error .value else .ok (eraseIndexes xs (sliceIndexes xs.length a b c))

/-- write `ys` to the indexes `is` [Python slice assignment; used at schema/containers.py:336, 495] -/
def writeIndexes {α} : List α → List Nat → List α → List α
  | xs, i :: is, y :: ys => writeIndexes (xs.set i y) is ys
  | xs, _, _ => xs

/-- `xs[a:b:c] = ys`: a plain slice is replaced whatever the length, an extended one needs the same number of items [Python slice assignment; used at schema/containers.py:336, 495] -/
def pySetSlice {α} (xs : List α) (a b c : Option Int) (ys : List α) : Except PyErr (List α) :=
  if c = some 0 then .error .value
  else if c.getD 1 = 1 then
    let start := (sliceStart xs.length 1 a).toNat
    let stop := max start (sliceStop xs.length 1 b).toNat
    .ok (xs.take start ++ ys ++ xs.drop stop)
  else if (sliceIndexes xs.length a b c).length = ys.length then .ok (writeIndexes xs (sliceIndexes xs.length a b c) ys)
  else .error .value

/-- `xs.remove(x)`: the first item equal to it, `none` = ValueError [Python list.remove; used at schema/containers.py:351, 528] -/
def pyRemove {α} (eq : α → Bool) : List α → Option (List α)
  | [] => .none
  | y :: ys => if eq y then some ys else (pyRemove eq ys).map (y :: ·)

/-- insertion before everything that is not smaller [Python list.sort; used at schema/containers.py:533] -/
def sortInsert {α} (lt : α → α → Bool) (x : α) : List α → List α
  | [] => [x]
  | y :: ys => if lt y x then y :: sortInsert lt x ys else x :: y :: ys

/-- a stable sort [Python list.sort; used at schema/containers.py:533] -/
def stableSort {α} (lt : α → α → Bool) : List α → List α
  | [] => []
  | x :: xs => sortInsert lt x (stableSort lt xs)

/-- `xs.sort(key=key, reverse=reverse)`: stable in both directions (a stable sort has one possible result; CPython reverses,
sorts and reverses again) -/
def pySort {α κ} (lt : κ → κ → Bool) (key : α → κ) (reverse : Bool) (xs : List α) : List α :=
  if reverse then (stableSort (fun x y => lt (key x) (key y)) xs.reverse).reverse
  else stableSort (fun x y => lt (key x) (key y)) xs

end Flatland
