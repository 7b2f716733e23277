import Verif.Model.Values
import Verif.Model.Compounds
/-
Model of `value`, `u`, `set` and `set_default` of element trees that also have DateYYYYMMDDs and JoinedStrings in them
(flatland/schema/compound.py:147-178, 196-330, flatland/schema/containers.py:229-269, 389-398, 603-628, 868-892, 978-1014, 1226-1237).

A DateYYYYMMDD is a Compound and so a Mapping first and a Scalar second (compound.py:73, 196): its `set_default` is Mapping's.  A JoinedString is an
Array first and a String second (compound.py:247): its `set_default` is Sequence's, which goes through the default item by item.

Simplifications: as in Model/Values.lean and Model/Compounds.lean.  `vSet` is `set` on a new element and sets a field anew for each value that it is
supplied with.  That is what the code does unless a list of pairs names a date twice, with None after another value: None leaves a date as it is.
Model/RichEdits.lean has no such simplification; C95_set shows that the two agree whenever no field is supplied twice, C95_repeated_none that they
need not otherwise.
-/
namespace Flatland

/-- Element classes: those of Model/Tree.lean, JoinedStrings (compound.py:247-294), DateYYYYMMDDs (compound.py:196-217, with the three child classes), and
Dicts, Lists and Arrays of them [schema/containers.py:431-690, 895-1240] -/
inductive VSchema
  | plain (s : Schema)
  | joined (h : Hdr) (c : JoinedCfg)
  | date (h : Hdr) (doStrip : Bool) (fields : List (Hdr × ScalarType))
  | dict (h : Hdr) (mode : DictMode) (policy : Policy) (fields : List VSchema)
  | list (h : Hdr) (prune : Bool) (max : Nat) (member : VSchema)
  | array (h : Hdr) (prune : Bool) (member : VSchema)

/-- Element instances; a JoinedString and a DateYYYYMMDD carry what their class says [schema/compound.py:196-294] -/
inductive VElem
  | plain (e : Elem)
  | joined (name : Option PStr) (c : JoinedCfg) (members : List ScalarState)
  | date (name : Option PStr) (doStrip : Bool) (kids : List ScalarState)
  | dict (name : Option PStr) (kids : List VElem)
  | list (name : Option PStr) (kids : List VElem)
  | array (name : Option PStr) (kids : List VElem)

/-- class attributes [schema/base.py:69-91] -/
def VSchema.hdr : VSchema → Hdr
  | .plain s => s.hdr
  | .joined h _ | .date h _ _ | .dict h _ _ _ | .list h _ _ _ | .array h _ _ => h

/-- the class's `name` [schema/base.py:69] -/
def VSchema.name (s : VSchema) : Option PStr := s.hdr.name

/-- the instance's `.name` [schema/base.py:69] -/
def VElem.name : VElem → Option PStr
  | .plain e => e.name
  | .joined n _ _ | .date n _ _ | .dict n _ | .list n _ | .array n _ => n

/-- is there an element at this position? [schema/containers.py:1141-1148] -/
def VElem.present : VElem → Bool
  | .plain e => e.present
  | _ => true

/-- the child positions of a Dict [schema/containers.py:809-812] -/
def VElem.kids : VElem → List VElem
  | .dict _ ks => ks
  | _ => []

/-- the element of a class without DateYYYYMMDDs and JoinedStrings [no code] -/
def VElem.asPlain : VElem → Elem
  | .plain e => e
  | _ => .absent

/-- the children of a DateYYYYMMDD [schema/containers.py:809-812] -/
def VElem.parts : VElem → List ScalarState
  | .date _ _ sts => sts
  | _ => []

/-- does `_reset` create this field? [schema/containers.py:771-776, 1141-1148] -/
def vAutoField (mode : DictMode) (f : VSchema) : Bool :=
  match mode with
  | .full => true
  | .sparse => false
  | .sparseRequired => !f.hdr.optional

mutual
/-- `schema()` [schema/base.py:130-153, schema/containers.py:177-181, 743-750, schema/compound.py:25-59] -/
def vFresh : VSchema → VElem
  | .plain s => .plain (fresh s)
  | .joined h c => .joined h.name c []
  | .date h doStrip fields => .date h.name doStrip (fields.map fun _ => .fresh)
  | .dict h mode _ fields => .dict h.name (vFreshFields mode fields)
  | .list h _ _ _ => .list h.name []
  | .array h _ _ => .array h.name []
/-- `Mapping._reset` / `SparseDict._reset` [schema/containers.py:771-776, 1141-1148] -/
def vFreshFields (mode : DictMode) : List VSchema → List VElem
  | [] => []
  | f :: fs => (if vAutoField mode f then vFresh f else .plain .absent) :: vFreshFields mode fs
end

/-! ### value and u -/

section
variable [Runtime]

mutual
/-- `el.value`; that of a DateYYYYMMDD or JoinedString is computed from its children
[schema/containers.py:389-391, 889-892, schema/compound.py:154-156, 322-325] -/
def vValue : VElem → Except PyErr PyVal
  | .plain e => .ok (elemValue e)
  | .joined _ c ms => .ok (.str (joinedText c ms))
  | .date _ doStrip sts => (dateView doStrip sts).map Prod.snd
  | .dict _ ks => (vItems ks).map .dict
  | .list _ ks => (vValues ks).map .list
  | .array _ ks => (vValues ks).map .list
/-- `dict((key, value.value) for key, value in iteritems(self))` [schema/containers.py:892] -/
def vItems : List VElem → Except PyErr (List (PStr × PyVal))
  | [] => .ok []
  | k :: ks =>
    if k.present then
      match vValue k with
      | .error er => .error er
      | .ok v => (vItems ks).map fun l => (k.name.getD [], v) :: l
    else vItems ks
/-- `list(value.value for value in self.children)` [schema/containers.py:391] -/
def vValues : List VElem → Except PyErr (List PyVal)
  | [] => .ok []
  | k :: ks => match vValue k with
    | .error er => .error er
    | .ok v => (vValues ks).map fun l => v :: l
end

/-- a child's text within the text of its container: only elements that are no Containers are quoted; DateYYYYMMDDs and JoinedStrings are Containers
[schema/containers.py:395-398, 882-884] -/
def vQuoted (repr : PStr → PStr) (k : VElem) (u : PStr) : PStr :=
  match k with
  | .plain e => if e.flattenable then repr u else u
  | _ => u

mutual
/-- `el.u`; `repr` is `decode_repr` (util/base.py:13-21) [schema/containers.py:393-398, 879-887, schema/compound.py:147-149, 327-330] -/
def vText (repr : PStr → PStr) : VElem → Except PyErr PStr
  | .plain e => .ok (elemU repr e)
  | .joined _ c ms => .ok (joinedText c ms)
  | .date _ doStrip sts => (dateView doStrip sts).map Prod.fst
  | .dict _ ks => (vPairTexts repr ks).map fun l => '{' :: pyJoin [',', ' '] l ++ ['}']
  | .list _ ks => (vTexts repr ks).map fun l => '[' :: pyJoin [',', ' '] l ++ [']']
  | .array _ ks => (vTexts repr ks).map fun l => '[' :: pyJoin [',', ' '] l ++ [']']
/-- the texts of a Mapping's items [schema/containers.py:882-887] -/
def vPairTexts (repr : PStr → PStr) : List VElem → Except PyErr (List PStr)
  | [] => .ok []
  | k :: ks =>
    if k.present then
      match vText repr k with
      | .error er => .error er
      | .ok u => (vPairTexts repr ks).map fun l => (repr (k.name.getD []) ++ ':' :: ' ' :: vQuoted repr k u) :: l
    else vPairTexts repr ks
/-- the texts of a Sequence's members [schema/containers.py:395-398] -/
def vTexts (repr : PStr → PStr) : List VElem → Except PyErr (List PStr)
  | [] => .ok []
  | k :: ks => match vText repr k with
    | .error er => .error er
    | .ok u => (vTexts repr ks).map fun l => vQuoted repr k u :: l
end

/-! ### set -/

/-- `Dict.set` / `SparseDict.set`, as `dictSet` of Model/Values.lean [schema/containers.py:978-1014] -/
def vDictSet (h : Hdr) (policy : Policy) (blank : List VElem) (names : List (Option PStr)) (setters : List (SetterOf VElem)) (v : PyVal) :
    Except PyErr (VElem × Bool) :=
  match valuePairs v with
  | .error er => .error er
  | .ok pairs => match dictSetLoop policy names setters blank [] true pairs with
    | .error er => .error er
    | .ok (kids, seen, converted) =>
      if policy = .strict ∧ ¬ (List.range names.length).all (fun i => seen.contains i) then .error .type else .ok (.dict h.name kids, converted)

mutual
/-- `schema().set(v)` [schema/containers.py:229-263, 978-1014, schema/compound.py:167-178, 296-317] -/
def vSet : VSchema → PyVal → Except PyErr (VElem × Bool)
  | .plain s, v => (setVal s v).map fun r => (.plain r.1, r.2)
  | .joined h c, v => match joinedSet c [] v with
    | (_, .error er) => .error er
    | (ms, .ok ok) => .ok (.joined h.name c ms, ok)
  | .date h doStrip fields, v => match dateSet doStrip (fields.map Prod.snd) (fields.map fun _ => .fresh) v with
    | (_, .error er) => .error er
    | (sts, .ok ok) => .ok (.date h.name doStrip sts, ok)
  | .dict h mode policy fields, v => vDictSet h policy (vFreshFields mode fields) (fields.map VSchema.name) (vSetters fields) v
  | .list h _ _ member, v => match seqSetVal (vSet member) v with
    | .error er => .error er
    | .ok (es, ok) => .ok (.list h.name es, ok)
  | .array h _ member, v => match seqSetVal (vSet member) v with
    | .error er => .error er
    | .ok (es, ok) => .ok (.array h.name es, ok)
/-- the setters of the fields [schema/containers.py:989, 1000-1003] -/
def vSetters : List VSchema → List (SetterOf VElem)
  | [] => []
  | f :: fs => vSet f :: vSetters fs
end

/-! ### set_default -/

/-- `self.append(self.member_schema(value=v))` for each item of the default of a JoinedString; nothing is split or pruned
[schema/containers.py:265-269, 285-307] -/
def joinedExtend (c : JoinedCfg) : List PyVal → Except PyErr (List ScalarState)
  | [] => .ok []
  | v :: vs => match scalarSet c.member .fresh v with
    | (_, .error er) => .error er
    | (st, .ok _) => (joinedExtend c vs).map fun sts => st :: sts

/-- each child of a DateYYYYMMDD takes its own default (Mapping.set_default) [schema/containers.py:873-874, schema/scalars.py:129-132] -/
def dateKidDefaults : List (Hdr × ScalarType) → List ScalarState → Except PyErr (List ScalarState)
  | (h, t) :: fs, st :: sts => match h.dflt with
    | .none => (dateKidDefaults fs sts).map fun l => st :: l
    | some d => match scalarSet t st d with
      | (_, .error er) => .error er
      | (st', .ok _) => (dateKidDefaults fs sts).map fun l => st' :: l
  | _, _ => .ok []

mutual
/-- `el.set_default()` for an element of the class [schema/scalars.py:129-132, schema/containers.py:265-269, 603-628, 868-874, 1226-1237] -/
def vSetDefault : VSchema → VElem → Except PyErr VElem
  | .plain s, e => (setDefault s e.asPlain).map .plain
  | .joined h c, e => match h.dflt with
    | some (.none) | .none => .ok e
    | some d => match pyIter d with
      | .error er => .error er
      | .ok vs => (joinedExtend c vs).map fun ms => .joined h.name c ms
  | .date h doStrip fields, e => match h.dflt with
    | some (.none) | .none => (dateKidDefaults fields e.parts).map fun sts => .date h.name doStrip sts
    | some d => match dateSet doStrip (fields.map Prod.snd) e.parts d with
      | (_, .error er) => .error er
      | (sts, .ok _) => .ok (.date h.name doStrip sts)
  | .dict h mode policy fields, e => match h.dflt with
    | some (.none) | .none => match mode with
      | .full => (vDefaultKids fields e.kids).map fun ks => .dict h.name ks
      | .sparse => .ok (.dict h.name (vFreshFields .sparse fields))
      | .sparseRequired => (vDefaultRequired fields).map fun ks => .dict h.name ks
    | some d => dropResult (vSet (.dict h mode policy fields) d)
  | .list h prune max member, e => match h.dflt with
    | some (.none) | .none => .ok e
    | some d => match defaultCount d with
      | some n => (repeatMember (vSetDefault member (vFresh member)) n).map fun ks => .list h.name ks
      | .none => dropResult (vSet (.list h prune max member) d)
  | .array h _ member, e => match h.dflt with
    | some (.none) | .none => .ok e
    | some d => match pyIter d with
      | .error er => .error er
      | .ok vs => (memberSetLoop (vSet member) vs).map fun r => .array h.name r.1
/-- each child's `set_default` (Mapping.set_default) [schema/containers.py:873-874] -/
def vDefaultKids : List VSchema → List VElem → Except PyErr (List VElem)
  | [], _ => .ok []
  | _ :: _, [] => .ok []
  | f :: fs, k :: ks => match vSetDefault f k with
    | .error er => .error er
    | .ok k' => (vDefaultKids fs ks).map fun ks' => k' :: ks'
/-- `self[schema.name] = schema.from_defaults()` for the required fields (SparseDict.set_default) [schema/containers.py:1234-1237] -/
def vDefaultRequired : List VSchema → Except PyErr (List VElem)
  | [] => .ok []
  | f :: fs => match (if f.hdr.optional then .ok (.plain .absent) else vSetDefault f (vFresh f)) with
    | .error er => .error er
    | .ok k => (vDefaultRequired fs).map fun ks => k :: ks
end

/-- `Schema.from_defaults()` (base.py:323-344) -/
def vFromDefaults (s : VSchema) : Except PyErr VElem := vSetDefault s (vFresh s)

end
end Flatland
