import Verif.Model.Edits
import Verif.Model.RichValues
import Verif.Spec.Nodes
/-! Calls on any element of a form that also has DateYYYYMMDDs and JoinedStrings in it: the operations of Model/Edits.lean, with what `set`, `set_flat`
and `set_default` leave behind when something in them raises, and those of Model/Compounds.lean.

The elements are the trees of Model/Tree.lean: a DateYYYYMMDD is a Mapping with three parts and a JoinedString an Array with its members
(compound.py:73, 196, 247); the classes of Model/RichValues.lean tell which is which and what their own methods do.

Simplifications: those of these files; the members of a JoinedString have no name; `==` of elements with dates or joined strings in them is any function
and does not raise. -/
namespace Flatland
open Flatland.Spec (Pos)

/-- the class of the members of a JoinedString [schema/compound.py:291] -/
def joinedMember (c : JoinedCfg) : Schema := .scalar { name := .none } c.member

mutual
/-- the class as a class without DateYYYYMMDDs and JoinedStrings: what they inherit from Mapping and Array [schema/compound.py:73, 196, 247] -/
def under : VSchema → Schema
  | .plain s => s
  | .joined h c => .array h c.prune (joinedMember c)
  | .date h _ fs => .dict h .full .subset (fs.map fun f => .scalar f.1 f.2)
  | .dict h mode policy fs => .dict h mode policy (unders fs)
  | .list h prune max m => .list h prune max (under m)
  | .array h prune m => .array h prune (under m)
/-- see `under` [schema/compound.py:73, 196, 247] -/
def unders : List VSchema → List Schema
  | [] => []
  | f :: fs => under f :: unders fs
end

/-- the states of the children, which are scalars [schema/containers.py:274-276, 809-812] -/
def kidStates (e : Elem) : List ScalarState := e.kids.map Elem.state

/-- the parts of a DateYYYYMMDD with these states [schema/compound.py:199-217] -/
def partElems : List (Hdr × ScalarType) → List ScalarState → List Elem
  | (h, _) :: fs, st :: sts => .scalar h.name st :: partElems fs sts
  | _, _ => []

/-- the members of a JoinedString with these states [schema/compound.py:291, 311-316] -/
def memberElems (sts : List ScalarState) : List Elem := sts.map fun st => .scalar .none st

/-- what `explode`, `set` and the like leave of a DateYYYYMMDD [schema/compound.py:157-178, 235-244] -/
def dateElem (h : Hdr) (fs : List (Hdr × ScalarType)) (sts : List ScalarState) : Elem := .dict h.name (partElems fs sts)

/-! ### set -/

mutual
/-- `el.set(v)` [schema/scalars.py:53-94, schema/containers.py:229-263, 978-1014, schema/compound.py:167-178, 296-317] -/
def richSet [Runtime] : VSchema → SetRunner
  | .plain s, e, v => setRun s e v
  | .joined h c, e, v =>
    let r := joinedSet c (kidStates e) v
    (.array h.name (memberElems r.1), r.2)
  | .date h doStrip fs, e, v =>
    let r := dateSet doStrip (fs.map Prod.snd) (kidStates e) v
    (dateElem h fs r.1, r.2)
  | .dict h mode policy fs, e, v => dictSetRun h policy (freshFields mode (unders fs)) (fs.map VSchema.name) (richRunners fs) e v
  | .list h _ _ m, _, v =>
    let r := seqSetRun (richSet m (fresh (under m))) v
    (.list h.name r.1, r.2)
  | .array h _ m, _, v =>
    let r := seqSetRun (richSet m (fresh (under m))) v
    (.array h.name r.1, r.2)
/-- the fields' `set`, a missing child being made first [schema/containers.py:999-1003] -/
def richRunners [Runtime] : List VSchema → List SetRunner
  | [] => []
  | f :: fs => (fun k v => richSet f (orFresh (under f) k) v) :: richRunners fs
end

/-! ### set_flat -/

/-- `JoinedString._set_flat` is `Scalar._set_flat` [schema/compound.py:319-320, schema/scalars.py:123-127] -/
def joinedFlatRun [Runtime] (h : Hdr) (c : JoinedCfg) (e : Elem) (ps : List FPair) : Ended Elem Unit :=
  match ps.find? fun p => p.1 == h.name with
  | .none => (e, .ok ())
  | some p =>
    let r := joinedSet c (kidStates e) (.str p.2)
    (.array h.name (memberElems r.1), r.2.map fun _ => ())

mutual
/-- `set_flat`; a DateYYYYMMDD's is Mapping's; Arrays are for members that are no Containers
[schema/base.py:743-754, schema/containers.py:548-601, 647-683, 837-866, schema/compound.py:180-181, 319-320] -/
def richSetFlat [Runtime] (sep : PStr) : VSchema → Elem → List FPair → Ended Elem Unit
  | .plain s, e, ps => setFlatRun sep s e ps
  | .joined h c, e, ps => joinedFlatRun h c e ps
  | .date h _ fs, e, ps => setFlatRun sep (.dict h .full .subset (fs.map fun f => .scalar f.1 f.2)) e ps
  | .dict h _ _ fs, e, ps =>
    match dictPossibles sep h.name ps with
    | .error er => (e, .error er)
    | .ok poss =>
      if poss.isEmpty then (e, .ok ())
      else
        let r := richFieldsFlat sep fs e.kids poss
        (.dict h.name r.1, r.2)
  | .list h prune max m, _, ps =>
    match listMatches sep h.name prune ps with
    | .error er => (.list h.name [], .error er)
    | .ok ms =>
      let idxs := if ms.isEmpty then [] else if prune then (sortedIdx ms).take max else List.range (min (maxIdx ms + 1) max)
      let r := slotsRun (fresh (under m)) (richSetFlat sep m) ms idxs
      (.list h.name r.1, r.2)
  | .array h prune (.plain (.scalar hm t)), _, ps =>
    let r := arrayMembersRun sep h.name prune hm t ps
    (.array h.name r.1, r.2)
  | .array h _ _, _, _ => (.array h.name [], .error .assertion)
/-- the loop over `field_schema` [schema/containers.py:855-866] -/
def richFieldsFlat [Runtime] (sep : PStr) : List VSchema → List Elem → List FPair → Ended (List Elem) Unit
  | [], _, _ => ([], .ok ())
  | f :: fs, kids, ps =>
    match accumField f.name ps with
    | .error er => (kids, .error er)
    | .ok accum =>
      let k := if accum.isEmpty then (kids.headD .absent, .ok ()) else richSetFlat sep f (orFresh (under f) (kids.headD .absent)) accum
      match k.2 with
      | .error er => (k.1 :: kids.tail, .error er)
      | .ok _ =>
        let r := richFieldsFlat sep fs kids.tail ps
        (k.1 :: r.1, r.2)
end

/-! ### set_default -/

mutual
/-- `el.set_default()`; a DateYYYYMMDD's is Mapping's and a JoinedString's is Sequence's
[schema/scalars.py:129-132, schema/containers.py:265-269, 603-628, 868-874, 1226-1237, schema/compound.py:73, 247] -/
def richDefault [Runtime] : VSchema → Elem → Ended Elem Unit
  | .plain s, e => setDefaultRun s e
  | .joined h c, e => setDefaultRun (.array h c.prune (joinedMember c)) e
  | .date h doStrip fs, e => match h.dflt with
    | some (.none) | .none =>
      let r := defaultKidsRun (fs.map fun f => .scalar f.1 f.2) e.kids
      (.dict h.name r.1, r.2)
    | some d =>
      let r := dateSet doStrip (fs.map Prod.snd) (kidStates e) d
      (dateElem h fs r.1, r.2.map fun _ => ())
  | .dict h mode policy fs, e => match h.dflt with
    | some (.none) | .none => match mode with
      | .full =>
        let r := richDefaultKids fs e.kids
        (.dict h.name r.1, r.2)
      | .sparse => (.dict h.name (freshFields .sparse (unders fs)), .ok ())
      | .sparseRequired =>
        let r := richDefaultRequired fs
        (.dict h.name r.1, r.2)
    | some d => forget (richSet (.dict h mode policy fs) e d)
  | .list h prune max m, e => match h.dflt with
    | some (.none) | .none => (e, .ok ())
    | some d => match defaultCount d with
      | some n =>
        let r := repeatRun (richDefault m (fresh (under m))) n
        (.list h.name r.1, r.2)
      | .none => forget (richSet (.list h prune max m) (.list h.name []) d)
  | .array h _ m, e => match h.dflt with
    | some (.none) | .none => (e, .ok ())
    | some d => match pyIter d with
      | .error er => (.array h.name [], .error er)
      | .ok vs =>
        let r := extendRun (richSet m (fresh (under m))) vs
        (.array h.name r.1, r.2)
/-- each child's `set_default` (Mapping.set_default) [schema/containers.py:873-874] -/
def richDefaultKids [Runtime] : List VSchema → List Elem → Ended (List Elem) Unit
  | [], ks => (ks, .ok ())
  | _ :: _, [] => ([], .ok ())
  | f :: fs, k :: ks =>
    let m := richDefault f k
    match m.2 with
    | .error er => (m.1 :: ks, .error er)
    | .ok _ =>
      let r := richDefaultKids fs ks
      (m.1 :: r.1, r.2)
/-- the required fields are made blank, then replaced by new ones with defaults (SparseDict.set_default) [schema/containers.py:1232-1237] -/
def richDefaultRequired [Runtime] : List VSchema → Ended (List Elem) Unit
  | [] => ([], .ok ())
  | f :: fs =>
    if f.hdr.optional then
      let r := richDefaultRequired fs
      (.absent :: r.1, r.2)
    else
      let m := richDefault f (fresh (under f))
      match m.2 with
      | .error er => (fresh (under f) :: freshFields .sparseRequired (unders fs), .error er)
      | .ok _ =>
        let r := richDefaultRequired fs
        (m.1 :: r.1, r.2)
end

/-! ### calls -/

/-- What Python knows about elements and the trees do not tell, as `Objects` of Model/Edits.lean; also `==` (schema/base.py:346-350). -/
structure RichObjects where
  plain : Objects
  isInstance : VSchema → Elem → Bool
  isEmpty : VSchema → Elem → Bool
  eq : VSchema → Elem → Elem → Bool

/-- a class as the generic operations use it [schema/base.py:130-153, schema/containers.py:457-464] -/
def richMember [Runtime] (o : RichObjects) (s : VSchema) : MemberClass PyVal Elem where
  blank := fresh (under s)
  make v := match richSet s (fresh (under s)) v with
    | (e, .ok _) => .ok e
    | (_, .error er) => .error er
  set e
    | .val v => richSet s e v
    | .el x => richSet s e (o.plain.asValue x)
  eq := o.eq s

/-- one entry of `field_schema` [schema/containers.py:740, 899-913] -/
def richField [Runtime] (o : RichObjects) (f : VSchema) : Field (Option PStr) PyVal Elem where
  name := f.name
  optional := f.hdr.optional
  cls := richMember o f
  isInstance := o.isInstance f
  optionalOf _ := f.hdr.optional
  isEmpty := o.isEmpty f
  setDefault := richDefault f
  fromDefaults := match richDefault f (fresh (under f)) with
    | (e, .ok _) => .ok e
    | (_, .error er) => .error er

/-- a Dict class as the generic operations use it [schema/containers.py:740, 919-944] -/
def richMap [Runtime] (o : RichObjects) (mode : DictMode) (policy : Policy) (fs : List VSchema) : MapClass (Option PStr) PyVal Elem where
  fields := fs.map (richField o)
  mode := mapModeOf mode
  policy := mapPolicyOf policy
  default := .none

/-- a call on an element, or an assignment to `value` or `u` of a DateYYYYMMDD, which does not catch exceptions
[schema/compound.py:147-165; schema/base.py:677-762, schema/containers.py:289-387, 477-546, 752-866, 978-1014, 1141-1240] -/
inductive RichOp (κ : Type)
  | call (op : EditOp κ)
  | assignDate (v : PyVal)

/-- `set`, `set_flat` or `set_default`, whether it raises or not [schema/base.py:677-762] -/
def richFill [Runtime] (sep : PStr) (s : VSchema) (e : Elem) : FillOp → Elem
  | .set v => (richSet s e v).1
  | .setFlat ps => (richSetFlat sep s e (ps.map fun p => (some p.1, p.2))).1
  | .setDefault => (richDefault s e).1

/-- does a Mapping that is no Dict have this method? `set` and the like are `richFill` [schema/containers.py:752-807] -/
def ofMapping : MapOp (Option PStr) PyVal Elem → Bool
  | .set _ _ | .setFlat _ | .setDefault => false
  | _ => true

/-- the element after the call, whether it raised or not; an element of another kind has no such method and stays as it is
[schema/base.py:677-762, schema/containers.py:289-387, 477-546, 752-866, 978-1014, 1141-1240, schema/compound.py:147-178, 296-317] -/
def richHere [Runtime] {κ : Type} (o : RichObjects) (sep : PStr) : VSchema → Elem → RichOp κ → Elem
  | s, e, .call (.fill op) => richFill sep s e op
  | .plain s, e, .call op => editHere o.plain sep s e op
  | .joined _ c, .array n ks, .call (.seq op) => .array n (seqStep (memberClass o.plain (joinedMember c)) ks op)
  | .date _ _ fs, .dict n ks, .call (.map op) =>
    if ofMapping op then
      let ss := fs.map fun f => Schema.scalar f.1 f.2
      .dict n (kidsOfDict ss (mapStep (mapClassOf o.plain .full .subset ss) (dictOfKids ss ks) op))
    else .dict n ks
  | .date h doStrip fs, e, .assignDate v => dateElem h fs (explodeDate doStrip (fs.map Prod.snd) (kidStates e) v).1
  | .list _ _ _ m, .list n ks, .call (.list op) => .list n (members (listStep (richMember o m) (slotsFrom 0 ks) op))
  | .array _ _ m, .array n ks, .call (.seq op) => .array n (seqStep (richMember o m) ks op)
  | .dict _ mode policy fs, .dict n ks, .call (.map op) =>
    .dict n (kidsOfDict (unders fs) (mapStep (richMap o mode policy fs) (dictOfKids (unders fs) ks) op))
  | _, e, _ => e

/-- the class of a child [schema/containers.py:740, schema/compound.py:199-217, 291] -/
def kidClass : VSchema → Nat → Option VSchema
  | .plain (.dict _ _ _ fs), i => fs[i]?.map .plain
  | .plain (.list _ _ _ m), _ | .plain (.array _ _ m), _ => some (.plain m)
  | .plain (.scalar _ _), _ => .none
  | .joined _ c, _ => some (.plain (joinedMember c))
  | .date _ _ fs, i => fs[i]?.map fun f => .plain (.scalar f.1 f.2)
  | .dict _ _ _ fs, i => fs[i]?
  | .list _ _ _ m, _ | .array _ _ m, _ => some m

/-- the class of the element at a position [no code] -/
def richClassAt : VSchema → Pos → Option VSchema
  | s, [] => some s
  | s, i :: p => match kidClass s i with
    | some k => richClassAt k p
    | .none => .none

/-- with another child in a place [no code] -/
def withKid : Elem → Nat → Elem → Elem
  | .dict n ks, i, k => .dict n (ks.set i k)
  | .list n ks, i, k => .list n (ks.set i k)
  | .array n ks, i, k => .array n (ks.set i k)
  | e, _, _ => e

/-- what becomes of a tree when the element at a position changes [no code: `root[…][…].call(…)`] -/
def changeAt (f : Elem → Elem) : Elem → Pos → Elem
  | e, [] => if e.present then f e else e
  | e, i :: p => match e.kids[i]? with
    | some k => withKid e i (changeAt f k p)
    | .none => e

/-- a call on the element at a position, where there is one [no code] -/
def richAt [Runtime] {κ : Type} (o : RichObjects) (sep : PStr) (s : VSchema) (e : Elem) (p : Pos) (op : RichOp κ) : Elem :=
  match richClassAt s p with
  | some c => changeAt (fun x => richHere o sep c x op) e p
  | .none => e

/-- calls one after the other, each on some element, exceptions caught by the caller [no code] -/
def richRun [Runtime] {κ : Type} (o : RichObjects) (sep : PStr) (s : VSchema) : Elem → List (Pos × RichOp κ) → Elem
  | e, [] => e
  | e, (p, op) :: rest => richRun o sep s (richAt o sep s e p op) rest

/-! ### the same element for Model/RichValues.lean -/

mutual
/-- the element with its DateYYYYMMDDs and JoinedStrings told apart [no code: the same element otherwise described] -/
def asRich : VSchema → Elem → VElem
  | .plain _, e => .plain e
  | .joined h c, .array _ ks => .joined h.name c (ks.map Elem.state)
  | .date h doStrip _, .dict _ ks => .date h.name doStrip (ks.map Elem.state)
  | .dict _ _ _ fs, .dict n ks => .dict n (asRichAll fs ks)
  | .list _ _ _ m, .list n ks => .list n (ks.map (asRich m))
  | .array _ _ m, .array n ks => .array n (ks.map (asRich m))
  | _, _ => .plain .absent
/-- see `asRich` [no code] -/
def asRichAll : List VSchema → List Elem → List VElem
  | f :: fs, k :: ks => asRich f k :: asRichAll fs ks
  | _, _ => []
end

end Flatland
