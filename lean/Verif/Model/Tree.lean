import Verif.Model.Scalars
/-
Model of element trees (flatland/schema/base.py, flatland/schema/containers.py): schemas, elements,
flatten() and set_flat().

Scope: Scalars, Dict, SparseDict, List and Array (MultiValue inherits `_set_flat` and `flattenable` from Array).
Simplifications, stated once:
* an element tree has no sharing (no element object occurs at two places);
* the `.raw` of containers is not modelled (the one of scalars is);
* the values of flat pairs are text;
* a Mapping's children are kept in `field_schema` order; the order in which Python iterates the
  underlying dict is arbitrary, and the theorems are stated so that it does not matter;
* when `set_flat` raises, the half-updated tree is not described (Model/HalfWay.lean does).
-/
namespace Flatland

/-- Class attributes every schema has: `name` (flatland/schema/base.py:69), `optional` (base.py:72),
and `default_value` (base.py:847-864; `none` = Unspecified, the class default is Python's `None`). -/
structure Hdr where
  name : Option PStr
  optional : Bool := false
  dflt : Option PyVal := some .none

/-- Which fields `_reset` creates: `Dict` all (flatland/schema/containers.py:771-776), `SparseDict` none or the
non-optional ones (containers.py:1136-1148). -/
inductive DictMode
  | full | sparse | sparseRequired
  deriving DecidableEq

/-- `Dict.policy`, flatland/schema/containers.py:919-923. -/
inductive Policy
  | strict | subset | duck
  deriving DecidableEq

/-- Element classes.  `list` carries `prune_empty` (containers.py:170) and `maximum_set_flat_members`
(containers.py:446); `array` carries `prune_empty` (containers.py:644). -/
inductive Schema
  | scalar (h : Hdr) (t : ScalarType)
  | dict (h : Hdr) (mode : DictMode) (policy : Policy) (fields : List Schema)
  | list (h : Hdr) (prune : Bool) (max : Nat) (member : Schema)
  | array (h : Hdr) (prune : Bool) (member : Schema)

/-- class attributes of a schema [schema/base.py:69-91] -/
def Schema.hdr : Schema → Hdr
  | .scalar h _ | .dict h _ _ _ | .list h _ _ _ | .array h _ _ => h

/-- the class's `name` [schema/base.py:69] -/
def Schema.name (s : Schema) : Option PStr := s.hdr.name

/-- Element instances.  The children of a `dict` are aligned with its schema's `field_schema`; `absent` marks
the place of a SparseDict field that is currently not in the mapping.  The `ListSlot`s of a List
(containers.py:401-428) are left implicit: member `i`'s slot is named `i` (that the List operations keep it so is
property C24, see Model/ListOps.lean). -/
inductive Elem
  | scalar (name : Option PStr) (st : ScalarState)
  | dict (name : Option PStr) (kids : List Elem)
  | list (name : Option PStr) (kids : List Elem)
  | array (name : Option PStr) (kids : List Elem)
  | absent

/-- the instance's `.name` [schema/base.py:69] -/
def Elem.name : Elem → Option PStr
  | .scalar n _ | .dict n _ | .list n _ | .array n _ => n
  | .absent => .none

/-- the child positions of an instance [schema/containers.py:274-276, 544-546, 809-812] -/
def Elem.kids : Elem → List Elem
  | .dict _ ks | .list _ ks | .array _ ks => ks
  | _ => []

/-- the data of a scalar [schema/base.py:105-120] -/
def Elem.state : Elem → ScalarState
  | .scalar _ st => st
  | _ => .fresh

/-- is there an element at this position? [schema/containers.py:1141-1148] -/
def Elem.present : Elem → Bool
  | .absent => false
  | _ => true

/-- `flattenable`: true for Scalars only (base.py:125, scalars.py:49, containers.py:645). -/
def Elem.flattenable : Elem → Bool
  | .scalar .. => true
  | _ => false

/-- does `_reset` create this field? (containers.py:771-776, 1141-1148) -/
def autoField (mode : DictMode) (f : Schema) : Bool :=
  match mode with
  | .full => true
  | .sparse => false
  | .sparseRequired => !f.hdr.optional

mutual
/-- `schema()`: a new element without a value (base.py:130-153, containers.py:177-181, 743-750). -/
def fresh : Schema → Elem
  | .scalar h _ => .scalar h.name .fresh
  | .dict h mode _ fields => .dict h.name (freshFields mode fields)
  | .list h _ _ _ => .list h.name []
  | .array h _ _ => .array h.name []
/-- `Mapping._reset` / `SparseDict._reset` [schema/containers.py:771-776, 1141-1148] -/
def freshFields (mode : DictMode) : List Schema → List Elem
  | [] => []
  | f :: fs => (if autoField mode f then fresh f else .absent) :: freshFields mode fs
end

/-- the element at a field, or a new one if the field is not there (containers.py:861-866) -/
def orFresh (f : Schema) : Elem → Elem
  | .absent => fresh f
  | k => k

/-! ### traversal and flatten -/

/-- The names met from the root down to an element, List slots included (base.py:397-400 `path`). -/
abbrev NamePath := List (Option PStr)

mutual
/-- number of elements in the subtree [measure for termination, no code] -/
def Elem.size : Elem → Nat
  | .dict _ ks | .list _ ks | .array _ ks => 1 + sizeList ks
  | _ => 1
/-- total size of a list of elements [measure for termination, no code] -/
def sizeList : List Elem → Nat
  | [] => 0
  | k :: ks => k.size + sizeList ks
end

/-- members of a List together with their paths: the slot is named by the index (containers.py:466-470, 540-546) -/
def slotKids (p : NamePath) : Nat → List Elem → List (NamePath × Elem)
  | _, [] => []
  | i, k :: ks => (p ++ [some (decimal i), k.name], k) :: slotKids p (i + 1) ks

/-- `children` (base.py:402-405, containers.py:274-276, 544-546, 809-812), each with its path. -/
def childrenOf (x : NamePath × Elem) : List (NamePath × Elem) :=
  match x.2 with
  | .dict _ ks | .array _ ks => (ks.filter Elem.present).map fun k => (x.1 ++ [k.name], k)
  | .list _ ks => slotKids x.1 0 ks
  | _ => []

/-- size of a work queue [measure for termination, no code] -/
def queueSize (q : List (NamePath × Elem)) : Nat := (q.map fun x => x.2.size).sum

theorem queueSize_append (q r) : queueSize (q ++ r) = queueSize q + queueSize r := by
  simp [queueSize]

theorem queueSize_slotKids (p i ks) : queueSize (slotKids p i ks) = sizeList ks := by
  induction ks generalizing i with
  | nil => rfl
  | cons k ks ih => simp [slotKids, queueSize, sizeList] at ih ⊢; rw [ih]

theorem queueSize_children (x) : queueSize (childrenOf x) < x.2.size := by
  obtain ⟨p, e⟩ := x
  have key : ∀ ks : List Elem, queueSize ((ks.filter Elem.present).map fun k => (p ++ [k.name], k)) ≤ sizeList ks := by
    intro ks
    induction ks with
    | nil => simp [queueSize, sizeList]
    | cons k ks ih =>
      simp only [List.filter_cons, sizeList]
      split
      · simp [queueSize] at ih ⊢; omega
      · omega
  cases e <;> simp only [childrenOf, Elem.size]
  · simp [queueSize]
  · have := key; rename_i ks; have := this ks; omega
  · rw [queueSize_slotKids]; omega
  · have := key; rename_i ks; have := this ks; omega
  · simp [queueSize]

/-- the work loop of `all_children` (base.py:411-418); the `seen` test never fires on a tree. -/
def bfs : List (NamePath × Elem) → List (NamePath × Elem)
  | [] => []
  | x :: q => x :: bfs (q ++ childrenOf x)
termination_by q => queueSize q
decreasing_by
  have := queueSize_children x
  rw [queueSize_append]
  simp only [queueSize, List.map_cons, List.sum_cons] at *
  omega

/-- `all_children` (base.py:407-418) of the element at path `p`. -/
def allChildren (p : NamePath) (e : Elem) : List (NamePath × Elem) := bfs (childrenOf (p, e))

/-- `flattened_name` (base.py:627-649). -/
def flatName (sep : PStr) (p : NamePath) : PStr := pyJoin sep (p.filterMap id)

/-- `flatten` (base.py:651-699) of the element at path `p`, with the default `value` callable. -/
def flattenAt (sep : PStr) (p : NamePath) (e : Elem) : List (PStr × PStr) :=
  (if e.flattenable then [(flatName sep p, e.state.u)] else []) ++
  ((allChildren p e).filter fun x => x.2.flattenable).map fun x => (flatName sep x.1, x.2.state.u)

/-- `root.flatten(sep)` [schema/base.py:691-699] -/
def flatten (sep : PStr) (e : Elem) : List (PStr × PStr) := flattenAt sep [e.name] e

/-! ### set_flat -/

/-- A flat pair inside `set_flat`.  Callers supply text keys; a List hands `None` to a member addressed by the bare
index (`or None`, containers.py:577). -/
abbrev FPair := Option PStr × PStr

/-- `name` as the List and Array code tests it (`if self.name`): None and '' count as unnamed. [schema/containers.py:554, 657, 664, 676] -/
def truthyName : Option PStr → Option PStr
  | some (c :: cs) => some (c :: cs)
  | _ => .none

/-- `text or None` [schema/containers.py:577, 675] -/
def orNone : PStr → Option PStr
  | [] => .none
  | s => some s

/-- `Mapping._set_flat`, first half (containers.py:838-850): which pairs concern this mapping, prefix removed. -/
def dictPossibles (sep : PStr) (name : Option PStr) (ps : List FPair) : Except PyErr (List FPair) :=
  match name with
  | .none => .ok ps
  | some n => go (n ++ sep) ps
where
  /-- the loop of containers.py:844-850 -/
  go (pre : PStr) : List FPair → Except PyErr (List FPair)
    | [] => .ok []
    | (.none, _) :: _ => .error .attribute
    | (some k, v) :: rest => do
      let r ← go pre rest
      .ok (if startsWith k pre then (some (k.drop pre.length), v) :: r else r)

/-- pairs handed to one field (containers.py:856-860): `key.startswith(field)`. -/
def accumField (field : Option PStr) : List FPair → Except PyErr (List FPair)
  | [] => .ok []
  | (.none, _) :: _ => .error .attribute
  | (some k, v) :: rest =>
    match field with
    | .none => .error .type
    | some f => do
      let r ← accumField field rest
      .ok (if startsWith k f then (some k, v) :: r else r)

/-- `\d` [schema/containers.py:555-559] -/
def isDigit' [Runtime] (c : Char) : Bool := (digit c).isSome

/-- The tail of the List regular expression, `(\d+)(?:sep|$)` (containers.py:554-559), by backtracking over the
number `n` of digits taken (greedy, so from the longest run down): returns the digits and what follows the match. -/
def idxTail (sep : PStr) (s : PStr) : Nat → Option (PStr × PStr)
  | 0 => .none
  | n + 1 =>
    let rest := s.drop (n + 1)
    if startsWith rest sep then some (s.take (n + 1), rest.drop sep.length)
    else if rest == [] || rest == ['\n'] then some (s.take (n + 1), rest)
    else idxTail sep s n

/-- the literal start of the List regular expression: `name + sep`, nothing for an unnamed List (containers.py:554-559) -/
def idxPrefix (sep : PStr) (name : Option PStr) : PStr :=
  match truthyName name with
  | some n => n ++ sep
  | .none => []

/-- The whole List regular expression (containers.py:554-559, 567-577): index and child key of a submitted key. -/
def idxMatch [Runtime] (sep : PStr) (name : Option PStr) (key : PStr) : Option (Nat × Option PStr) :=
  if startsWith key (idxPrefix sep name) then
    let s := key.drop (idxPrefix sep name).length
    match idxTail sep s (s.takeWhile isDigit').length with
    | some (ds, rest) => (digitsAcc 0 ds).map fun (i : Nat) => (i, orNone rest)
    | .none => .none
  else .none

/-- `List._set_flat`, the loop over the pairs (containers.py:561-578): recognised pairs with their index. -/
def listMatches [Runtime] (sep : PStr) (name : Option PStr) (prune : Bool) :
    List FPair → Except PyErr (List (Nat × FPair))
  | [] => .ok []
  | (k, v) :: rest =>
    if v == [] && prune then listMatches sep name prune rest
    else match k with
      | .none => .error .type
      | some k => do
        let r ← listMatches sep name prune rest
        match idxMatch sep name k with
        | some (i, ck) => .ok ((i, (ck, v)) :: r)
        | .none => .ok r

/-- insertion into a strictly increasing list of indexes [schema/containers.py:586] -/
def insertIdx (i : Nat) : List Nat → List Nat
  | [] => [i]
  | j :: js => if i < j then i :: j :: js else if i = j then j :: js else j :: insertIdx i js

/-- `sorted(indexes)` (containers.py:586): the distinct indexes in increasing order. -/
def sortedIdx (ms : List (Nat × FPair)) : List Nat := ms.foldr (fun m acc => insertIdx m.1 acc) []

/-- `max(indexes)` (containers.py:595). -/
def maxIdx (ms : List (Nat × FPair)) : Nat := ms.foldr (fun m acc => max m.1 acc) 0

/-- `indexes[i]` (containers.py:578). -/
def subPairs (ms : List (Nat × FPair)) (i : Nat) : List FPair := (ms.filter fun m => m.1 == i).map Prod.snd

/-- Which pairs make an Array member, and the key handed to `member_schema.from_flat` (containers.py:657-683). -/
def arrayPick (sep : PStr) (name childName : Option PStr) (prune : Bool) (p : FPair) :
    Except PyErr (Option (Option PStr)) :=
  match truthyName name with
  | .none =>
    if prune && p.2 == [] && p.1 == some (childName.getD []) then .ok .none
    else
      let key := if p.1 == some [] then .none else p.1
      if (truthyName childName).isSome && key != childName then .ok .none
      else .ok (some key)
  | some n =>
    match p.1 with
    | .none => .error .type
    | some k =>
      let tail := if startsWith k (n ++ sep) then some (k.drop (n ++ sep).length)
        else if k == n || k == n ++ ['\n'] then some (k.drop n.length)
        else .none
      match tail with
      | .none => .ok .none
      | some r =>
        let remainder := orNone r
        if (truthyName childName).isSome && remainder.isNone then .ok .none
        else if remainder.isSome && (truthyName childName).isNone then .ok .none
        else if prune && p.2 == [] && remainder == childName then .ok .none
        else .ok (some remainder)

/-- `Scalar._set_flat` after `Element.set_flat` reset `.raw` (base.py:743-754, scalars.py:123-127). -/
def scalarSetFlat [Runtime] (name : Option PStr) (t : ScalarType) (st : ScalarState) (ps : List FPair) :
    Except PyErr Elem :=
  match ps.find? fun p => p.1 == name with
  | .none => .ok (.scalar name { st with raw := .none })
  | some p => match scalarSet t { st with raw := .none } (.str p.2) with
    | (st', .ok _) => .ok (.scalar name st')
    | (_, .error e) => .error e

/-- `Array._set_flat` (containers.py:647-683) for a scalar member class. -/
def arrayMembers [Runtime] (sep : PStr) (name : Option PStr) (prune : Bool) (hm : Hdr) (t : ScalarType) :
    List FPair → Except PyErr (List Elem)
  | [] => .ok []
  | p :: rest => do
    match ← arrayPick sep name hm.name prune p with
    | .none => arrayMembers sep name prune hm t rest
    | some key => do
      let m ← scalarSetFlat hm.name t .fresh [(key, p.2)]
      let ms ← arrayMembers sep name prune hm t rest
      .ok (m :: ms)

mutual
/-- `set_flat` (base.py:743-754) dispatching to `_set_flat`. -/
def setFlat [Runtime] (sep : PStr) : Schema → Elem → List FPair → Except PyErr Elem
  -- scalars.py:123-127
  | .scalar h t, e, ps => scalarSetFlat h.name t e.state ps
  -- containers.py:837-866
  | .dict h _ _ fields, e, ps =>
    match dictPossibles sep h.name ps with
    | .error er => .error er
    | .ok poss =>
      if poss.isEmpty then .ok e
      else match setFlatFields sep fields e.kids poss with
        | .error er => .error er
        | .ok kids => .ok (.dict h.name kids)
  -- containers.py:548-601
  | .list h prune max m, _, ps =>
    match listMatches sep h.name prune ps with
    | .error er => .error er
    | .ok ms =>
      let idxs := if ms.isEmpty then [] else if prune then (sortedIdx ms).take max
        else List.range (min (maxIdx ms + 1) max)
      match idxs.mapM fun i =>
          if (subPairs ms i).isEmpty then .ok (fresh m) else setFlat sep m (fresh m) (subPairs ms i) with
      | .error er => .error er
      | .ok kids => .ok (.list h.name kids)
  -- containers.py:647-683
  | .array h prune (.scalar hm t), _, ps =>
    match arrayMembers sep h.name prune hm t ps with
    | .error er => .error er
    | .ok kids => .ok (.array h.name kids)
  | .array _ _ _, _, _ => .error .assertion
/-- the loop over `field_schema` (containers.py:855-866) -/
def setFlatFields [Runtime] (sep : PStr) : List Schema → List Elem → List FPair → Except PyErr (List Elem)
  | [], _, _ => .ok []
  | f :: fs, kids, ps =>
    let kid := kids.headD .absent
    match accumField f.name ps with
    | .error er => .error er
    | .ok accum =>
      match (if accum.isEmpty then .ok kid
             else setFlat sep f (orFresh f kid) accum) with
      | .error er => .error er
      | .ok kid' => match setFlatFields sep fs kids.tail ps with
        | .error er => .error er
        | .ok rest => .ok (kid' :: rest)
end

/-- `schema.from_flat(pairs)` (base.py:298-320), with the separator made explicit. -/
def fromFlat [Runtime] (sep : PStr) (s : Schema) (ps : List (PStr × PStr)) : Except PyErr Elem :=
  setFlat sep s (fresh s) (ps.map fun p => (some p.1, p.2))

end Flatland
