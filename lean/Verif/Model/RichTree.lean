import Verif.Model.Compounds
/-
Model of element trees that also have Compounds and JoinedStrings in them: which elements `flatten()` lists and what `set_flat` does
(flatland/schema/base.py:402-418, 627-754; flatland/schema/containers.py:548-601, 837-866; flatland/schema/compound.py:73-193, 247-330).

A Compound is a Mapping and a Scalar, a JoinedString an Array and a String.  For `flatten` both count as flattenable: a Compound because
Mapping and Container say nothing about it and Scalar does (base.py:125-127, scalars.py:49, compound.py:73), a JoinedString because it says so
itself (compound.py:293).

Simplifications: as in Model/Tree.lean; the fields of a Compound are trees without further Compounds or JoinedStrings; a Compound's `u` is a function of its
children and does not raise; the members of a JoinedString are scalars; no Arrays of Compounds or JoinedStrings (their `set_flat` is an AssertionError,
containers.py:650-652).
-/
namespace Flatland

/-- Element classes: those of Model/Tree.lean, JoinedStrings (compound.py:247-294, with the name of the member class), Compounds (compound.py:73-165,
with the text that `compose` makes of the children), and Dicts and Lists of them [schema/containers.py:431-628, 895-1240] -/
inductive RSchema
  | plain (s : Schema)
  | joined (h : Hdr) (c : JoinedCfg) (member : Option PStr)
  | compound (h : Hdr) (compose : List Elem → PStr) (fields : List Schema)
  | dict (h : Hdr) (mode : DictMode) (policy : Policy) (fields : List RSchema)
  | list (h : Hdr) (prune : Bool) (max : Nat) (member : RSchema)

/-- Element instances; a JoinedString and a Compound carry what their class says [schema/compound.py:73-165, 247-294] -/
inductive RElem
  | plain (e : Elem)
  | joined (name : Option PStr) (c : JoinedCfg) (member : Option PStr) (members : List ScalarState)
  | compound (name : Option PStr) (compose : List Elem → PStr) (kids : List Elem)
  | dict (name : Option PStr) (kids : List RElem)
  | list (name : Option PStr) (kids : List RElem)

/-- class attributes [schema/base.py:69-91] -/
def RSchema.hdr : RSchema → Hdr
  | .plain s => s.hdr
  | .joined h _ _ | .compound h _ _ | .dict h _ _ _ | .list h _ _ _ => h

/-- the class's `name` [schema/base.py:69] -/
def RSchema.name (s : RSchema) : Option PStr := s.hdr.name

/-- the instance's `.name` [schema/base.py:69] -/
def RElem.name : RElem → Option PStr
  | .plain e => e.name
  | .joined n _ _ _ | .compound n _ _ | .dict n _ | .list n _ => n

/-- the child positions of a Dict or List [schema/containers.py:274-276, 544-546, 809-812] -/
def RElem.kids : RElem → List RElem
  | .dict _ ks | .list _ ks => ks
  | _ => []

/-- is there an element at this position? [schema/containers.py:1141-1148] -/
def RElem.present : RElem → Bool
  | .plain e => e.present
  | _ => true

/-- the element of a class without Compounds and JoinedStrings [no code] -/
def RElem.asPlain : RElem → Elem
  | .plain e => e
  | _ => .absent

/-- `flattenable`: Scalars, JoinedStrings and Compounds [schema/base.py:125, schema/scalars.py:49, schema/containers.py:645, schema/compound.py:73, 293] -/
def RElem.flattenable : RElem → Bool
  | .plain e => e.flattenable
  | .joined .. | .compound .. => true
  | _ => false

/-- `children_flattenable`: False for JoinedStrings only [schema/base.py:127, schema/compound.py:294] -/
def RElem.childrenFlattenable : RElem → Bool
  | .joined .. => false
  | _ => true

/-- `el.u` of a flattenable element [schema/scalars.py:53-94, schema/compound.py:147-149, 327-330] -/
def RElem.text : RElem → PStr
  | .plain e => e.state.u
  | .joined _ c _ ms => joinedText c ms
  | .compound _ compose ks => compose ks
  | _ => []

/-- does `_reset` create this field? [schema/containers.py:771-776, 1141-1148] -/
def rAutoField (mode : DictMode) (f : RSchema) : Bool :=
  match mode with
  | .full => true
  | .sparse => false
  | .sparseRequired => !f.hdr.optional

mutual
/-- `schema()` [schema/base.py:130-153, schema/containers.py:177-181, 743-750, schema/compound.py:25-59] -/
def rFresh : RSchema → RElem
  | .plain s => .plain (fresh s)
  | .joined h c m => .joined h.name c m []
  | .compound h compose fields => .compound h.name compose (freshFields .full fields)
  | .dict h mode _ fields => .dict h.name (rFreshFields mode fields)
  | .list h _ _ _ => .list h.name []
/-- `Mapping._reset` / `SparseDict._reset` [schema/containers.py:771-776, 1141-1148] -/
def rFreshFields (mode : DictMode) : List RSchema → List RElem
  | [] => []
  | f :: fs => (if rAutoField mode f then rFresh f else .plain .absent) :: rFreshFields mode fs
end

/-- the element at a field, or a new one if the field is not there [schema/containers.py:861-866] -/
def rOrFresh (f : RSchema) (k : RElem) : RElem := if k.present then k else rFresh f

/-! ### flatten -/

mutual
/-- number of elements in the subtree [measure for termination, no code] -/
def RElem.size : RElem → Nat
  | .plain e => e.size
  | .joined _ _ _ ms => 1 + ms.length
  | .compound _ _ ks => 1 + sizeList ks
  | .dict _ ks | .list _ ks => 1 + rSizeList ks
/-- total size of a list of elements [measure for termination, no code] -/
def rSizeList : List RElem → Nat
  | [] => 0
  | k :: ks => k.size + rSizeList ks
end

/-- members of a List together with their paths [schema/containers.py:466-470, 540-546] -/
def rSlotKids (p : NamePath) : Nat → List RElem → List (NamePath × RElem)
  | _, [] => []
  | i, k :: ks => (p ++ [some (decimal i), k.name], k) :: rSlotKids p (i + 1) ks

/-- `children`, each with its path; those of a JoinedString are its members, those of a Compound its fields
[schema/base.py:402-405, schema/containers.py:274-276, 544-546, 809-812] -/
def rChildrenOf (x : NamePath × RElem) : List (NamePath × RElem) :=
  match x.2 with
  | .plain e => (childrenOf (x.1, e)).map fun y => (y.1, .plain y.2)
  | .joined _ _ m ms => ms.map fun st => (x.1 ++ [m], .plain (.scalar m st))
  | .compound n _ ks => (childrenOf (x.1, .dict n ks)).map fun y => (y.1, .plain y.2)
  | .dict _ ks => (ks.filter RElem.present).map fun k => (x.1 ++ [k.name], k)
  | .list _ ks => rSlotKids x.1 0 ks

/-- size of a work queue [measure for termination, no code] -/
def rQueueSize (q : List (NamePath × RElem)) : Nat := (q.map fun x => x.2.size).sum

theorem rQueueSize_append (q r) : rQueueSize (q ++ r) = rQueueSize q + rQueueSize r := by
  simp [rQueueSize]

theorem rQueueSize_plain (q : List (NamePath × Elem)) : rQueueSize (q.map fun y => (y.1, .plain y.2)) = queueSize q := by
  simp [rQueueSize, queueSize, Function.comp_def, RElem.size]

theorem rQueueSize_slotKids (p i ks) : rQueueSize (rSlotKids p i ks) = rSizeList ks := by
  induction ks generalizing i with
  | nil => rfl
  | cons k ks ih => simp [rSlotKids, rQueueSize, rSizeList] at ih ⊢; rw [ih]

theorem rQueueSize_kids (p : NamePath) (ks : List RElem) :
    rQueueSize ((ks.filter RElem.present).map fun k => (p ++ [k.name], k)) ≤ rSizeList ks := by
  induction ks with
  | nil => simp [rQueueSize, rSizeList]
  | cons k ks ih =>
    simp only [List.filter_cons, rSizeList]
    split
    · simp [rQueueSize] at ih ⊢; omega
    · omega

theorem rQueueSize_children (x) : rQueueSize (rChildrenOf x) < x.2.size := by
  obtain ⟨p, e⟩ := x
  cases e with
  | plain e => simp only [rChildrenOf, rQueueSize_plain, RElem.size]; exact queueSize_children (p, e)
  | joined n c m ms =>
    simp only [rChildrenOf, RElem.size, rQueueSize, List.map_map]
    have : (ms.map ((fun x : NamePath × RElem => x.2.size) ∘ fun st => (p ++ [m], RElem.plain (.scalar m st)))).sum = ms.length := by
      induction ms with
      | nil => rfl
      | cons a l ih => simp [RElem.size, Elem.size] at ih ⊢; omega
    omega
  | compound n c ks =>
    simp only [rChildrenOf, rQueueSize_plain, RElem.size]
    have := queueSize_children (p, .dict n ks)
    simpa [Elem.size] using this
  | dict n ks => simp only [rChildrenOf, RElem.size]; have := rQueueSize_kids p ks; omega
  | list n ks => simp only [rChildrenOf, RElem.size]; rw [rQueueSize_slotKids]; omega

/-- the work loop of `all_children` [schema/base.py:411-418] -/
def rBfs : List (NamePath × RElem) → List (NamePath × RElem)
  | [] => []
  | x :: q => x :: rBfs (q ++ rChildrenOf x)
termination_by q => rQueueSize q
decreasing_by
  have := rQueueSize_children x
  rw [rQueueSize_append]
  simp only [rQueueSize, List.map_cons, List.sum_cons] at *
  omega

/-- `flatten` of the element at path `p`: `children_flattenable` is asked of this element only, not of the ones below [schema/base.py:651-699] -/
def rFlattenAt (sep : PStr) (p : NamePath) (e : RElem) : List (PStr × PStr) :=
  (if e.flattenable then [(flatName sep p, e.text)] else []) ++
  (if e.childrenFlattenable then
    ((rBfs (rChildrenOf (p, e))).filter fun x => x.2.flattenable).map fun x => (flatName sep x.1, x.2.text)
  else [])

/-- `root.flatten(sep)` [schema/base.py:691-699] -/
def rFlatten (sep : PStr) (e : RElem) : List (PStr × PStr) := rFlattenAt sep [e.name] e

/-! ### set_flat -/

/-- `JoinedString._set_flat` is `Scalar._set_flat` [schema/compound.py:319-320, schema/scalars.py:123-127] -/
def rJoinedSetFlat [Runtime] (name : Option PStr) (c : JoinedCfg) (m : Option PStr) (ms : List ScalarState) (ps : List FPair) : Except PyErr RElem :=
  match ps.find? fun p => p.1 == name with
  | .none => .ok (.joined name c m ms)
  | some p => match joinedSet c ms (.str p.2) with
    | (ms', .ok _) => .ok (.joined name c m ms')
    | (_, .error er) => .error er

/-- the members a JoinedString has [schema/compound.py:247-294] -/
def RElem.members : RElem → List ScalarState
  | .joined _ _ _ ms => ms
  | _ => []

/-- the fields a Compound has [schema/compound.py:73-165] -/
def RElem.fields : RElem → List Elem
  | .compound _ _ ks => ks
  | _ => []

mutual
/-- `set_flat` dispatching to `_set_flat` [schema/base.py:743-754] -/
def rSetFlat [Runtime] (sep : PStr) : RSchema → RElem → List FPair → Except PyErr RElem
  | .plain s, e, ps => (setFlat sep s e.asPlain ps).map .plain
  -- compound.py:319-320
  | .joined h c m, e, ps => rJoinedSetFlat h.name c m e.members ps
  -- compound.py:180-181: Mapping._set_flat
  | .compound h compose fields, e, ps =>
    (setFlat sep (.dict h .full .subset fields) (.dict h.name e.fields) ps).map fun d => .compound h.name compose d.kids
  -- containers.py:837-866
  | .dict h _ _ fields, e, ps =>
    match dictPossibles sep h.name ps with
    | .error er => .error er
    | .ok poss =>
      if poss.isEmpty then .ok e
      else match rSetFlatFields sep fields e.kids poss with
        | .error er => .error er
        | .ok kids => .ok (.dict h.name kids)
  -- containers.py:548-601
  | .list h prune max m, _, ps =>
    match listMatches sep h.name prune ps with
    | .error er => .error er
    | .ok ms =>
      let idxs := if ms.isEmpty then [] else if prune then (sortedIdx ms).take max
        else List.range (min (maxIdx ms + 1) max)
      match idxs.mapM fun i =>
          if (subPairs ms i).isEmpty then .ok (rFresh m) else rSetFlat sep m (rFresh m) (subPairs ms i) with
      | .error er => .error er
      | .ok kids => .ok (.list h.name kids)
/-- the loop over `field_schema` [schema/containers.py:855-866] -/
def rSetFlatFields [Runtime] (sep : PStr) : List RSchema → List RElem → List FPair → Except PyErr (List RElem)
  | [], _, _ => .ok []
  | f :: fs, kids, ps =>
    let kid := kids.headD (.plain .absent)
    match accumField f.name ps with
    | .error er => .error er
    | .ok accum =>
      match (if accum.isEmpty then .ok kid
             else rSetFlat sep f (rOrFresh f kid) accum) with
      | .error er => .error er
      | .ok kid' => match rSetFlatFields sep fs kids.tail ps with
        | .error er => .error er
        | .ok rest => .ok (kid' :: rest)
end

/-- `schema.from_flat(pairs)` [schema/base.py:298-320] -/
def rFromFlat [Runtime] (sep : PStr) (s : RSchema) (ps : List (PStr × PStr)) : Except PyErr RElem :=
  rSetFlat sep s (rFresh s) (ps.map fun p => (some p.1, p.2))

end Flatland
