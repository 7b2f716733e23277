import Verif.Model.Tree

/-! What `set_flat` may be given: base.py:743-754 and how containers.py and scalars.py go through it. -/

namespace Flatland

/-- An iterable of pairs: those it has still to give, and whether it can be gone through only once, as a generator. [Python] -/
structure PairSource where
  pairs : List FPair
  oneShot : Bool

/-- What a caller may pass: a list or tuple, an iterator, or an object with `items`, whose `items()` again gives either. [schema/base.py:743-752] -/
inductive FlatArg
  | sequence (ps : List FPair)
  | iterator (ps : List FPair)
  | mapping (items : PairSource)

/-- `if hasattr(pairs, 'items'): pairs = pairs.items()` (a dictionary's items can be gone through again) [schema/base.py:751-752] -/
def FlatArg.source : FlatArg → PairSource
  | .sequence ps => ⟨ps, false⟩
  | .iterator ps => ⟨ps, true⟩
  | .mapping items => items

/-- `bool(pairs)`: an iterator has no length and counts as true [Python] -/
def PairSource.truthy (s : PairSource) : Bool := s.oneShot || !s.pairs.isEmpty

/-- a `for` loop over all the pairs, and what is left then [Python] -/
def PairSource.read (s : PairSource) : List FPair × PairSource := (s.pairs, if s.oneShot then ⟨[], true⟩ else s)

/-- the loop over `field_schema`, each time going through the pairs again [schema/containers.py:855-866] -/
def setFlatFieldsFrom [Runtime] (sep : PStr) : List Schema → List Elem → PairSource → Except PyErr (List Elem)
  | [], _, _ => .ok []
  | f :: fs, kids, src =>
    let kid := kids.headD .absent
    match accumField f.name src.read.1 with
    | .error er => .error er
    | .ok accum =>
      match (if accum.isEmpty then .ok kid else setFlat sep f (orFresh f kid) accum) with
      | .error er => .error er
      | .ok kid' => match setFlatFieldsFrom sep fs kids.tail src.read.2 with
        | .error er => .error er
        | .ok rest => .ok (kid' :: rest)

/-- `set_flat` on what the caller passed: an unnamed mapping goes through it itself (838-839, 852-859), a List looks whether there is something
and then goes through it once (551-566), all the others go through it once (647-683, 841-850 and scalars.py:123-127) and hand on lists
[schema/base.py:743-754, schema/containers.py:548-601, 647-683, 837-866, schema/scalars.py:123-127] -/
def setFlatArg [Runtime] (sep : PStr) (s : Schema) (e : Elem) (arg : FlatArg) : Except PyErr Elem :=
  let src := arg.source
  match s with
  | .dict h mode policy fields =>
    match h.name with
    | .none =>
      if !src.truthy then .ok e
      else match setFlatFieldsFrom sep fields e.kids src with
        | .error er => .error er
        | .ok kids => .ok (.dict h.name kids)
    | some _ => setFlat sep (.dict h mode policy fields) e src.read.1
  | .list h prune max m => if !src.truthy then .ok (.list h.name []) else setFlat sep (.list h prune max m) e src.read.1
  | s => setFlat sep s e src.read.1

end Flatland
