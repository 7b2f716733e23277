import Verif.Model.Values
/-! `set`, `set_flat` and `set_default` of whole element trees with what they leave behind when something in them raises: the functions of
Model/Tree.lean and Model/Values.lean again, each with the element as it is afterwards, whether it returned or raised.

Simplifications as there, except that the half-updated tree is described: the `raw` of containers is not; the children of a Dict are gone
through in the order of the fields. -/
namespace Flatland

/-- what an operation leaves and how it ended [no code] -/
abbrev Ended (α β : Type) := α × Except PyErr β

/-! ### set_flat -/

/-- `Scalar._set_flat` [schema/base.py:750, schema/scalars.py:123-127, 71-94] -/
def scalarSetFlatRun [Runtime] (name : Option PStr) (t : ScalarType) (st : ScalarState) (ps : List FPair) : Ended Elem Unit :=
  match ps.find? fun p => p.1 == name with
  | .none => (.scalar name { st with raw := .none }, .ok ())
  | some p =>
    let r := scalarSet t { st with raw := .none } (.str p.2)
    (.scalar name r.1, r.2.map fun _ => ())

/-- the loops of `Array._set_flat`: a member is appended once it has been set [schema/containers.py:659-667, 671-683] -/
def arrayMembersRun [Runtime] (sep : PStr) (name : Option PStr) (prune : Bool) (hm : Hdr) (t : ScalarType) : List FPair → Ended (List Elem) Unit
  | [] => ([], .ok ())
  | p :: rest => match arrayPick sep name hm.name prune p with
    | .error er => ([], .error er)
    | .ok .none => arrayMembersRun sep name prune hm t rest
    | .ok (some key) =>
      let m := scalarSetFlatRun hm.name t .fresh [(key, p.2)]
      match m.2 with
      | .error er => ([], .error er)
      | .ok _ =>
        let r := arrayMembersRun sep name prune hm t rest
        (m.1 :: r.1, r.2)

/-- the loops of `List._set_flat`: a member is appended, then set [schema/containers.py:585-601] -/
def slotsRun (blank : Elem) (step : Elem → List FPair → Ended Elem Unit) (ms : List (Nat × FPair)) : List Nat → Ended (List Elem) Unit
  | [] => ([], .ok ())
  | i :: is =>
    let m := if (subPairs ms i).isEmpty then (blank, .ok ()) else step blank (subPairs ms i)
    match m.2 with
    | .error er => ([m.1], .error er)
    | .ok _ =>
      let r := slotsRun blank step ms is
      (m.1 :: r.1, r.2)

mutual
/-- `set_flat` [schema/base.py:743-754, schema/scalars.py:123-127, schema/containers.py:548-601, 647-683, 837-866] -/
def setFlatRun [Runtime] (sep : PStr) : Schema → Elem → List FPair → Ended Elem Unit
  | .scalar h t, e, ps => scalarSetFlatRun h.name t e.state ps
  | .dict h _ _ fields, e, ps =>
    match dictPossibles sep h.name ps with
    | .error er => (e, .error er)
    | .ok poss =>
      if poss.isEmpty then (e, .ok ())
      else
        let r := fieldsRun sep fields e.kids poss
        (.dict h.name r.1, r.2)
  | .list h prune max m, _, ps =>
    match listMatches sep h.name prune ps with
    | .error er => (.list h.name [], .error er)
    | .ok ms =>
      let idxs := if ms.isEmpty then [] else if prune then (sortedIdx ms).take max else List.range (min (maxIdx ms + 1) max)
      let r := slotsRun (fresh m) (setFlatRun sep m) ms idxs
      (.list h.name r.1, r.2)
  | .array h prune (.scalar hm t), _, ps =>
    let r := arrayMembersRun sep h.name prune hm t ps
    (.array h.name r.1, r.2)
  | .array h _ _, _, _ => (.array h.name [], .error .assertion)
/-- the loop over `field_schema`: what comes after a field that raises is as it was [schema/containers.py:855-866] -/
def fieldsRun [Runtime] (sep : PStr) : List Schema → List Elem → List FPair → Ended (List Elem) Unit
  | [], _, _ => ([], .ok ())
  | f :: fs, kids, ps =>
    match accumField f.name ps with
    | .error er => (kids, .error er)
    | .ok accum =>
      let k := if accum.isEmpty then (kids.headD .absent, .ok ()) else setFlatRun sep f (orFresh f (kids.headD .absent)) accum
      match k.2 with
      | .error er => (k.1 :: kids.tail, .error er)
      | .ok _ =>
        let r := fieldsRun sep fs kids.tail ps
        (k.1 :: r.1, r.2)
end

/-! ### set -/

/-- what `el.set(v)` does to an element [schema/containers.py:257, 1000-1003, schema/scalars.py:53-94] -/
abbrev SetRunner := Elem → PyVal → Ended Elem Bool

/-- the loop of `Dict.set`: the child of the key is set, once it is there [schema/containers.py:990-1004] -/
def dictSetLoopRun (policy : Policy) (names : List (Option PStr)) (runners : List SetRunner) :
    List Elem → List Nat → Bool → List (Except PyErr (PyVal × PyVal)) → Ended (List Elem) (List Nat × Bool)
  | kids, seen, converted, [] => (kids, .ok (seen, converted))
  | kids, _, _, .error er :: _ => (kids, .error er)
  | kids, seen, converted, .ok (k, v) :: rest =>
    match fieldPos names k with
    | .error er => (kids, .error er)
    | .ok .none => if policy = .duck then dictSetLoopRun policy names runners kids seen converted rest else (kids, .error .key)
    | .ok (some i) => match runners[i]? with
      | .none => (kids, .error .key)
      | some run =>
        let r := run (kids[i]?.getD .absent) v
        match r.2 with
        | .error er => (kids.set i r.1, .error er)
        | .ok ok => dictSetLoopRun policy names runners (kids.set i r.1) (i :: seen) (converted && ok) rest

/-- `Dict.set` / `SparseDict.set`: nothing happens to something that cannot be iterated; else the fields are made blank first [schema/containers.py:978-1014] -/
def dictSetRun (h : Hdr) (policy : Policy) (blank : List Elem) (names : List (Option PStr)) (runners : List SetRunner) (e : Elem) (v : PyVal) :
    Ended Elem Bool :=
  match valuePairs v with
  | .error er => (e, .error er)
  | .ok pairs =>
    let r := dictSetLoopRun policy names runners blank [] true pairs
    (.dict h.name r.1, match r.2 with
      | .error er => .error er
      | .ok (seen, converted) =>
        if policy = .strict ∧ ¬ (List.range names.length).all (fun i => seen.contains i) then .error .type else .ok converted)

/-- the loop of `Sequence.set`: members are collected [schema/containers.py:255-258] -/
def membersRun (run : PyVal → Ended Elem Bool) : List PyVal → Except PyErr (List Elem × Bool)
  | [] => .ok ([], true)
  | v :: vs =>
    let m := run v
    match m.2 with
    | .error er => .error er
    | .ok ok => match membersRun run vs with
      | .error er => .error er
      | .ok (es, oks) => .ok (m.1 :: es, ok && oks)

/-- `Sequence.set`: emptied first, the members put in together at the end [schema/containers.py:251-263] -/
def seqSetRun (run : PyVal → Ended Elem Bool) (v : PyVal) : Ended (List Elem) Bool :=
  match pyIter v with
  | .error _ => ([], .ok false)
  | .ok vs => match membersRun run vs with
    | .error .type => ([], .ok false)
    | .error er => ([], .error er)
    | .ok (es, ok) => (es, .ok ok)

mutual
/-- `el.set(v)` [schema/scalars.py:53-94, schema/containers.py:229-263, 978-1014] -/
def setRun [Runtime] : Schema → SetRunner
  | .scalar h t, e, v =>
    let r := scalarSet t e.state v
    (.scalar h.name r.1, r.2)
  | .dict h mode policy fields, e, v =>
    dictSetRun h policy (freshFields mode fields) (fields.map Schema.name) (fieldRunners fields) e v
  | .list h _ _ member, _, v =>
    let r := seqSetRun (setRun member (fresh member)) v
    (.list h.name r.1, r.2)
  | .array h _ member, _, v =>
    let r := seqSetRun (setRun member (fresh member)) v
    (.array h.name r.1, r.2)
/-- the fields' `set`, a missing child being made first [schema/containers.py:999-1003] -/
def fieldRunners [Runtime] : List Schema → List SetRunner
  | [] => []
  | f :: fs => (fun k v => setRun f (orFresh f k) v) :: fieldRunners fs
end

/-! ### set_default -/

/-- the result of `set` dropped [schema/containers.py:628, 871] -/
def forget {α β : Type} (r : Ended α β) : Ended α Unit := (r.1, r.2.map fun _ => ())

/-- `n` members, each appended and then given its default [schema/containers.py:623-626] -/
def repeatRun (m : Ended Elem Unit) : Nat → Ended (List Elem) Unit
  | 0 => ([], .ok ())
  | n + 1 => match m.2 with
    | .error er => ([m.1], .error er)
    | .ok _ =>
      let r := repeatRun m n
      (m.1 :: r.1, r.2)

/-- `Sequence.extend` with raw values: each member is made, then appended [schema/containers.py:289-304] -/
def extendRun (run : PyVal → Ended Elem Bool) : List PyVal → Ended (List Elem) Unit
  | [] => ([], .ok ())
  | v :: vs =>
    let m := run v
    match m.2 with
    | .error er => ([], .error er)
    | .ok _ =>
      let r := extendRun run vs
      (m.1 :: r.1, r.2)

mutual
/-- `el.set_default()` [schema/scalars.py:129-132, schema/containers.py:265-269, 603-628, 868-874, 1226-1237] -/
def setDefaultRun [Runtime] : Schema → Elem → Ended Elem Unit
  | .scalar h t, e => match h.dflt with
    | .none => (e, .ok ())
    | some d =>
      let r := scalarSet t e.state d
      (.scalar h.name r.1, r.2.map fun _ => ())
  | .dict h mode policy fields, e => match h.dflt with
    | some (.none) | .none => match mode with
      | .full =>
        let r := defaultKidsRun fields e.kids
        (.dict h.name r.1, r.2)
      | .sparse => (.dict h.name (freshFields .sparse fields), .ok ())
      | .sparseRequired =>
        let r := defaultRequiredKidsRun fields
        (.dict h.name r.1, r.2)
    | some d => forget (setRun (.dict h mode policy fields) e d)
  | .list h prune max member, e => match h.dflt with
    | some (.none) | .none => (e, .ok ())
    | some d => match defaultCount d with
      | some n =>
        let r := repeatRun (setDefaultRun member (fresh member)) n
        (.list h.name r.1, r.2)
      | .none => forget (setRun (.list h prune max member) (.list h.name []) d)
  | .array h _ member, e => match h.dflt with
    | some (.none) | .none => (e, .ok ())
    | some d => match pyIter d with
      | .error er => (.array h.name [], .error er)
      | .ok vs =>
        let r := extendRun (setRun member (fresh member)) vs
        (.array h.name r.1, r.2)
/-- each child's `set_default` (Mapping.set_default) [schema/containers.py:873-874] -/
def defaultKidsRun [Runtime] : List Schema → List Elem → Ended (List Elem) Unit
  | [], ks => (ks, .ok ())
  | _ :: _, [] => ([], .ok ())
  | f :: fs, k :: ks =>
    let m := setDefaultRun f k
    match m.2 with
    | .error er => (m.1 :: ks, .error er)
    | .ok _ =>
      let r := defaultKidsRun fs ks
      (m.1 :: r.1, r.2)
/-- the required fields are made blank, then replaced by new ones with defaults (SparseDict.set_default) [schema/containers.py:1232-1237] -/
def defaultRequiredKidsRun [Runtime] : List Schema → Ended (List Elem) Unit
  | [] => ([], .ok ())
  | f :: fs =>
    if f.hdr.optional then
      let r := defaultRequiredKidsRun fs
      (.absent :: r.1, r.2)
    else
      let m := setDefaultRun f (fresh f)
      match m.2 with
      | .error er => (fresh f :: freshFields .sparseRequired fs, .error er)
      | .ok _ =>
        let r := defaultRequiredKidsRun fs
        (m.1 :: r.1, r.2)
end

/-! ### histories -/

/-- the calls that fill an element [schema/base.py:677-762] -/
inductive FillOp
  | set (v : PyVal)
  | setFlat (ps : List (PStr × PStr))
  | setDefault

/-- one call, whether it raises or not [schema/base.py:677-762] -/
def fillStep [Runtime] (sep : PStr) (s : Schema) (e : Elem) : FillOp → Elem
  | .set v => (setRun s e v).1
  | .setFlat ps => (setFlatRun sep s e (ps.map fun p => (some p.1, p.2))).1
  | .setDefault => (setDefaultRun s e).1

/-- calls one after the other on one element, exceptions caught by the caller [schema/base.py:677-762] -/
def fillRun [Runtime] (sep : PStr) (s : Schema) : Elem → List FillOp → Elem
  | e, [] => e
  | e, op :: ops => fillRun sep s (fillStep sep s e op) ops

end Flatland
