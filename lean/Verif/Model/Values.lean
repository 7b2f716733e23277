import Verif.Model.Tree
/-! `value`, `u`, `set` and `set_default` of whole element trees: flatland/schema/containers.py (Sequence 229-269, 389-398; List 603-628;
Mapping 868-874, 879-892; Dict 978-1014; SparseDict 1117-1240), flatland/schema/scalars.py:53-94, 129-132, flatland/schema/base.py:323-354.

Simplifications: the keys of a Dict's value are texts (an unnamed field counts as named ''); only lists, dicts and texts can be iterated;
when `set` or `set_default` raises, the half-updated tree is not described (Model/HalfWay.lean does). -/
namespace Flatland

/-! ### value and u -/

mutual
/-- `el.value` [schema/containers.py:389-391, 889-892, schema/base.py:105] -/
def elemValue : Elem → PyVal
  | .scalar _ st => st.value
  | .dict _ ks => .dict (kidItems ks)
  | .list _ ks => .list (kidValues ks)
  | .array _ ks => .list (kidValues ks)
  | .absent => .none
/-- `dict((key, value.value) for key, value in iteritems(self))` [schema/containers.py:892] -/
def kidItems : List Elem → List (PStr × PyVal)
  | [] => []
  | k :: ks => if k.present then (k.name.getD [], elemValue k) :: kidItems ks else kidItems ks
/-- `list(value.value for value in self.children)` [schema/containers.py:391] -/
def kidValues : List Elem → List PyVal
  | [] => []
  | k :: ks => elemValue k :: kidValues ks
end

mutual
/-- `el.u`; `repr` is `decode_repr` (util/base.py:13-21) -/
def elemU (repr : PStr → PStr) : Elem → PStr
  | .scalar _ st => st.u
  | .dict _ ks => '{' :: pyJoin [',', ' '] (kidPairTexts repr ks) ++ ['}']
  | .list _ ks => '[' :: pyJoin [',', ' '] (kidTexts repr ks) ++ [']']
  | .array _ ks => '[' :: pyJoin [',', ' '] (kidTexts repr ks) ++ [']']
  | .absent => []
/-- the texts of a Mapping's items [schema/containers.py:882-887] -/
def kidPairTexts (repr : PStr → PStr) : List Elem → List PStr
  | [] => []
  | k :: ks =>
    if k.present then (repr (k.name.getD []) ++ ':' :: ' ' :: (if k.flattenable then repr (elemU repr k) else elemU repr k)) :: kidPairTexts repr ks
    else kidPairTexts repr ks
/-- the texts of a Sequence's members [schema/containers.py:395-398] -/
def kidTexts (repr : PStr → PStr) : List Elem → List PStr
  | [] => []
  | k :: ks => (if k.flattenable then repr (elemU repr k) else elemU repr k) :: kidTexts repr ks
end

/-- `el == other` for two elements (base.py:346-350) -/
def elemEq (repr : PStr → PStr) (a b : Elem) : Bool := pyEq (elemValue a) (elemValue b) && elemU repr a == elemU repr b

/-- any other Python object: its attributes `value` and `u`, if it has them -/
structure AnyObj where
  value : Option PyVal
  u : Option PStr

/-- an element, as any object [schema/base.py:346-350] -/
def Elem.asObj (repr : PStr → PStr) (e : Elem) : AnyObj := ⟨some (elemValue e), some (elemU repr e)⟩

/-- `el == other` (base.py:346-350): AttributeError means not equal; `u` is looked at only when the values are equal -/
def elemEqAny (repr : PStr → PStr) (e : Elem) (o : AnyObj) : Bool :=
  match o.value with
  | .none => false
  | some v => if pyEq (elemValue e) v then (match o.u with | .none => false | some t => elemU repr e == t) else false

/-! ### set -/

/-- `for v in value` [Python; used at schema/containers.py:255, util/base.py:249] -/
def pyIter : PyVal → Except PyErr (List PyVal)
  | .list xs => .ok xs
  | .dict kvs => .ok (kvs.map fun p => .str p.1)
  | .str s => .ok (s.map fun c => .str [c])
  | _ => .error .type

/-- `key, value = item` [util/base.py:249] -/
def unpackPair (item : PyVal) : Except PyErr (PyVal × PyVal) :=
  match pyIter item with
  | .error er => .error er
  | .ok [k, v] => .ok (k, v)
  | .ok _ => .error .value

/-- `to_pairs(value)` (util/base.py:235-249): TypeError at once if it cannot be iterated, other errors when the item is reached -/
def valuePairs : PyVal → Except PyErr (List (Except PyErr (PyVal × PyVal)))
  | .dict kvs => .ok (kvs.map fun p => .ok (.str p.1, p.2))
  | v => match pyIter v with
    | .error er => .error er
    | .ok items => .ok (items.map unpackPair)

/-- what `schema().set(v)` does: the element afterwards (any previous content is replaced) and the result, for elements modelled by `E`
[schema/containers.py:257, 1000, schema/scalars.py:53-94] -/
abbrev SetterOf (E : Type) := PyVal → Except PyErr (E × Bool)

/-- `SetterOf` for the elements of Model/Tree.lean [schema/containers.py:257, 1000, schema/scalars.py:53-94] -/
abbrev Setter := SetterOf Elem

/-- `fields[key]`: the position of the field of that name; a key that cannot be hashed is a TypeError [schema/containers.py:993] -/
def fieldPos (names : List (Option PStr)) : PyVal → Except PyErr (Option Nat)
  | .str k => .ok (names.findIdx? fun n => n == some k)
  | .list _ => .error .type
  | .dict _ => .error .type
  | _ => .ok .none

/-- the loop of `Dict.set` over children, keys seen and `converted` [schema/containers.py:990-1004] -/
def dictSetLoop {E : Type} (policy : Policy) (names : List (Option PStr)) (setters : List (SetterOf E)) :
    List E → List Nat → Bool → List (Except PyErr (PyVal × PyVal)) → Except PyErr (List E × List Nat × Bool)
  | kids, seen, converted, [] => .ok (kids, seen, converted)
  | _, _, _, .error er :: _ => .error er
  | kids, seen, converted, .ok (k, v) :: rest =>
    match fieldPos names k with
    | .error er => .error er
    | .ok .none => if policy = .duck then dictSetLoop policy names setters kids seen converted rest else .error .key
    | .ok (some i) => match setters[i]? with
      | .none => .error .key
      | some setter => match setter v with
        | .error er => .error er
        | .ok (e, ok) => dictSetLoop policy names setters (kids.set i e) (i :: seen) (converted && ok) rest

/-- `Dict.set` / `SparseDict.set` [schema/containers.py:978-1014] -/
def dictSet (h : Hdr) (policy : Policy) (blank : List Elem) (names : List (Option PStr)) (setters : List Setter) (v : PyVal) :
    Except PyErr (Elem × Bool) :=
  match valuePairs v with
  | .error er => .error er
  | .ok pairs => match dictSetLoop policy names setters blank [] true pairs with
    | .error er => .error er
    | .ok (kids, seen, converted) =>
      if policy = .strict ∧ ¬ (List.range names.length).all (fun i => seen.contains i) then .error .type else .ok (.dict h.name kids, converted)

/-- the loop of `Sequence.set` [schema/containers.py:255-258] -/
def memberSetLoop {E : Type} (setter : SetterOf E) : List PyVal → Except PyErr (List E × Bool)
  | [] => .ok ([], true)
  | v :: vs => match setter v with
    | .error er => .error er
    | .ok (e, ok) => match memberSetLoop setter vs with
      | .error er => .error er
      | .ok (es, oks) => .ok (e :: es, ok && oks)

/-- `Sequence.set`: TypeErrors are caught, the sequence stays empty [schema/containers.py:251-263] -/
def seqSetVal {E : Type} (setter : SetterOf E) (v : PyVal) : Except PyErr (List E × Bool) :=
  match pyIter v with
  | .error _ => .ok ([], false)
  | .ok vs => match memberSetLoop setter vs with
    | .error .type => .ok ([], false)
    | .error er => .error er
    | .ok r => .ok r

mutual
/-- `schema().set(v)` [schema/scalars.py:53-94, schema/containers.py:229-263, 978-1014] -/
def setVal [Runtime] : Schema → PyVal → Except PyErr (Elem × Bool)
  | .scalar h t, v => match scalarSet t .fresh v with
    | (_, .error er) => .error er
    | (st, .ok ok) => .ok (.scalar h.name st, ok)
  | .dict h mode policy fields, v => dictSet h policy (freshFields mode fields) (fields.map Schema.name) (fieldSetters fields) v
  | .list h _ _ member, v => match seqSetVal (setVal member) v with
    | .error er => .error er
    | .ok (es, ok) => .ok (.list h.name es, ok)
  | .array h _ member, v => match seqSetVal (setVal member) v with
    | .error er => .error er
    | .ok (es, ok) => .ok (.array h.name es, ok)
/-- the setters of the fields [schema/containers.py:989, 1000-1003] -/
def fieldSetters [Runtime] : List Schema → List Setter
  | [] => []
  | f :: fs => setVal f :: fieldSetters fs
end

/-! ### set_default -/

/-- the element of `set`, the result dropped [schema/containers.py:628, 871] -/
def dropResult {E : Type} (r : Except PyErr (E × Bool)) : Except PyErr E := r.map Prod.fst

/-- `n` members by the given maker [schema/containers.py:623-626] -/
def repeatMember {E : Type} (mk : Except PyErr E) : Nat → Except PyErr (List E)
  | 0 => .ok []
  | n + 1 => match mk with
    | .error er => .error er
    | .ok e => match repeatMember mk n with
      | .error er => .error er
      | .ok es => .ok (e :: es)

/-- `isinstance(default, int)`, with the number [schema/containers.py:622] -/
def defaultCount : PyVal → Option Nat
  | .int i => some i.toNat
  | .bool b => some (if b then 1 else 0)
  | _ => .none

mutual
/-- `el.set_default()` for an element of the class [schema/scalars.py:129-132, schema/containers.py:265-269, 603-628, 868-874, 1226-1237] -/
def setDefault [Runtime] : Schema → Elem → Except PyErr Elem
  | .scalar h t, e => match h.dflt with
    | .none => .ok e
    | some d => match scalarSet t e.state d with
      | (_, .error er) => .error er
      | (st, .ok _) => .ok (.scalar h.name st)
  | .dict h mode policy fields, e => match h.dflt with
    | some (.none) | .none => match mode with
      | .full => match defaultKids fields e.kids with
        | .error er => .error er
        | .ok ks => .ok (.dict h.name ks)
      | .sparse => .ok (.dict h.name (freshFields .sparse fields))
      | .sparseRequired => match defaultRequiredKids fields with
        | .error er => .error er
        | .ok ks => .ok (.dict h.name ks)
    | some d => dropResult (setVal (.dict h mode policy fields) d)
  | .list h prune max member, e => match h.dflt with
    | some (.none) | .none => .ok e
    | some d => match defaultCount d with
      | some n => match repeatMember (setDefault member (fresh member)) n with
        | .error er => .error er
        | .ok ks => .ok (.list h.name ks)
      | .none => dropResult (setVal (.list h prune max member) d)
  | .array h _ member, e => match h.dflt with
    | some (.none) | .none => .ok e
    | some d => match pyIter d with
      | .error er => .error er
      | .ok vs => match memberSetLoop (setVal member) vs with
        | .error er => .error er
        | .ok (es, _) => .ok (.array h.name es)
/-- each child's `set_default` (Mapping.set_default) [schema/containers.py:873-874] -/
def defaultKids [Runtime] : List Schema → List Elem → Except PyErr (List Elem)
  | [], _ => .ok []
  | _ :: _, [] => .ok []
  | f :: fs, k :: ks => match setDefault f k with
    | .error er => .error er
    | .ok k' => match defaultKids fs ks with
      | .error er => .error er
      | .ok ks' => .ok (k' :: ks')
/-- `self[schema.name] = schema.from_defaults()` for the required fields (SparseDict.set_default) [schema/containers.py:1234-1237] -/
def defaultRequiredKids [Runtime] : List Schema → Except PyErr (List Elem)
  | [] => .ok []
  | f :: fs => match (if f.hdr.optional then .ok .absent else setDefault f (fresh f)) with
    | .error er => .error er
    | .ok k => match defaultRequiredKids fs with
      | .error er => .error er
      | .ok ks => .ok (k :: ks)
end

/-- `Schema.from_defaults()` (base.py:323-344) -/
def fromDefaults [Runtime] (s : Schema) : Except PyErr Elem := setDefault s (fresh s)

end Flatland
