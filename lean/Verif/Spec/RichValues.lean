import Verif.Model.RichValues
import Verif.Spec.Values
import Verif.Spec.ValueSet
import Verif.Spec.Compounds
/-! Specifications for values, `set` and defaults of forms with DateYYYYMMDDs and JoinedStrings (C88). -/
namespace Flatland.Spec
open Flatland

/-! ### instances of a class -/

/-- may this field be missing from a new Dict of the mode? -/
def mayLack (mode : DictMode) (f : VSchema) : Prop := mode = .sparse ∨ (mode = .sparseRequired ∧ f.hdr.optional = true)

mutual
/-- `e` is an instance of `s` -/
def VConforms : VSchema → VElem → Prop
  | .plain s, .plain e => Conforms s e
  | .joined h c, .joined n c' _ => n = h.name ∧ c' = c
  | .date h st fs, .date n st' sts => n = h.name ∧ st' = st ∧ sts.length = fs.length
  | .dict h mode _ fs, .dict n ks => n = h.name ∧ VConformsAll mode fs ks
  | .list h _ _ m, .list n ks => n = h.name ∧ ∀ k ∈ ks, VConforms m k
  | .array h _ m, .array n ks => n = h.name ∧ ∀ k ∈ ks, VConforms m k
  | _, _ => False
/-- the children are instances of the fields; a field may only be missing when the Dict's mode allows it -/
def VConformsAll (mode : DictMode) : List VSchema → List VElem → Prop
  | [], [] => True
  | f :: fs, k :: ks => ((k = .plain .absent ∧ mayLack mode f) ∨ VConforms f k) ∧ VConformsAll mode fs ks
  | _, _ => False
end

mutual
/-- the fields of every Dict have names of their own -/
def VNamed : VSchema → Prop
  | .plain s => NamedFields s
  | .joined _ _ => True
  | .date _ _ _ => True
  | .dict _ _ _ fs => (∀ f ∈ fs, f.name ≠ .none) ∧ (fs.map VSchema.name).Nodup ∧ VNamedAll fs
  | .list _ _ _ m => VNamed m
  | .array _ _ m => VNamed m
/-- see `VNamed` -/
def VNamedAll : List VSchema → Prop
  | [] => True
  | f :: fs => VNamed f ∧ VNamedAll fs
end

mutual
/-- no field of a strict SparseDict is missing -/
def VComplete : VSchema → VElem → Prop
  | .plain s, .plain e => Complete s e
  | .dict _ _ policy fs, .dict _ ks => (policy = .strict → ∀ k ∈ ks, k.present = true) ∧ VCompleteAll fs ks
  | .list _ _ _ m, .list _ ks => ∀ k ∈ ks, VComplete m k
  | .array _ _ m, .array _ ks => ∀ k ∈ ks, VComplete m k
  | _, _ => True
/-- see `VComplete` -/
def VCompleteAll : List VSchema → List VElem → Prop
  | f :: fs, k :: ks => VComplete f k ∧ VCompleteAll fs ks
  | _, _ => True
end

mutual
/-- every part satisfies its condition: `P` the scalars, Dicts, Lists and Arrays without dates and joined strings, `J` the joined strings, `D` the dates
(with the classes of their children) -/
def VEach (P : Schema → Elem → Prop) (J : JoinedCfg → List ScalarState → Prop) (D : Bool → List ScalarType → List ScalarState → Prop) :
    VSchema → VElem → Prop
  | .plain s, .plain e => e.present = true → P s e
  | .joined _ c, .joined _ _ ms => J c ms
  | .date _ st fs, .date _ _ sts => D st (fs.map Prod.snd) sts
  | .dict _ _ _ fs, .dict _ ks => VEachAll P J D fs ks
  | .list _ _ _ m, .list _ ks => ∀ k ∈ ks, VEach P J D m k
  | .array _ _ m, .array _ ks => ∀ k ∈ ks, VEach P J D m k
  | _, _ => True
/-- see `VEach` -/
def VEachAll (P : Schema → Elem → Prop) (J : JoinedCfg → List ScalarState → Prop) (D : Bool → List ScalarType → List ScalarState → Prop) :
    List VSchema → List VElem → Prop
  | f :: fs, k :: ks => VEach P J D f k ∧ VEachAll P J D fs ks
  | _, _ => True
end

/-- texts and native values (everything but the `.raw` input) -/
def dataOf (sts : List ScalarState) : List (PStr × PyVal) := sts.map fun st => (st.u, st.value)

mutual
/-- same structure and names, with the same texts and values everywhere -/
def VSame : VElem → VElem → Prop
  | .plain e, .plain e' => SameBy SameData e e'
  | .joined n c ms, .joined n' c' ms' => n = n' ∧ c = c' ∧ dataOf ms = dataOf ms'
  | .date n st sts, .date n' st' sts' => n = n' ∧ st = st' ∧ dataOf sts = dataOf sts'
  | .dict n ks, .dict n' ks' | .list n ks, .list n' ks' | .array n ks, .array n' ks' => n = n' ∧ VSameAll ks ks'
  | _, _ => False
/-- see `VSame` -/
def VSameAll : List VElem → List VElem → Prop
  | [], [] => True
  | k :: ks, k' :: ks' => VSame k k' ∧ VSameAll ks ks'
  | _, _ => False
end

/-! ### what value and text show -/

/-- the children hold the year, month and day of a date -/
def HoldsDay (sts : List ScalarState) (y m d : Nat) : Prop := RealDate y m d ∧ sts.map ScalarState.value = [.int y, .int m, .int d]

mutual
/-- every date has three children, and they hold numbers or None -/
def DatesOfNumbers : VElem → Prop
  | .date _ _ sts => sts.length = 3 ∧ ∀ st ∈ sts, st.value = .none ∨ ∃ i, st.value = .int i
  | .dict _ ks | .list _ ks | .array _ ks => DatesOfNumbersAll ks
  | _ => True
/-- see `DatesOfNumbers` -/
def DatesOfNumbersAll : List VElem → Prop
  | [] => True
  | k :: ks => DatesOfNumbers k ∧ DatesOfNumbersAll ks
end

/-- is the text of the element quoted in that of its container?  Only that of a scalar -/
def IsQuoted : VElem → Prop
  | .plain (.scalar ..) => True
  | _ => False

mutual
/-- `v` and `t` are what `value` and `u` should be: a joined string is the texts of its members with the separator between them; a date is the date, and
its text YYYY-MM-DD, or None and empty; a Dict shows the fields that are there, in order, and Lists and Arrays show their members.  Only the texts
of scalars are quoted. -/
def VShows (repr : PStr → PStr) : VElem → PyVal → PStr → Prop
  | .plain e, v, t => Shows repr e v t
  | .joined _ c ms, v, t => v = .str t ∧ t = List.intercalate c.separator (ms.map ScalarState.u)
  | .date _ _ sts, v, t =>
    (∃ y m d, HoldsDay sts y m d ∧ v = .date y m d ∧ t = padNat 4 y ++ "-".toList ++ padNat 2 m ++ "-".toList ++ padNat 2 d) ∨
    ((¬ ∃ y m d, HoldsDay sts y m d) ∧ v = .none ∧ t = [])
  | .dict _ ks, v, t => ∃ items ts, v = .dict items ∧ t = "{".toList ++ commas ts ++ "}".toList ∧ VShowsItems repr ks items ts
  | .list _ ks, v, t | .array _ ks, v, t => ∃ vs ts, v = .list vs ∧ t = "[".toList ++ commas ts ++ "]".toList ∧ VShowsMembers repr ks vs ts
/-- the fields, each with its name; those that are not there are left out -/
def VShowsItems (repr : PStr → PStr) : List VElem → List (PStr × PyVal) → List PStr → Prop
  | [], items, ts => items = [] ∧ ts = []
  | k :: ks, items, ts =>
    (k.present = false ∧ VShowsItems repr ks items ts) ∨
    ∃ v t t' items' ts', k.present = true ∧ VShows repr k v t ∧ (IsQuoted k → t' = repr t) ∧ (¬ IsQuoted k → t' = t) ∧
      items = (k.name.getD [], v) :: items' ∧ ts = (repr (k.name.getD []) ++ ": ".toList ++ t') :: ts' ∧ VShowsItems repr ks items' ts'
/-- the members, in order -/
def VShowsMembers (repr : PStr → PStr) : List VElem → List PyVal → List PStr → Prop
  | [], vs, ts => vs = [] ∧ ts = []
  | k :: ks, vs, ts => ∃ v t t' vs' ts', VShows repr k v t ∧ (IsQuoted k → t' = repr t) ∧ (¬ IsQuoted k → t' = t) ∧ vs = v :: vs' ∧ ts = t' :: ts' ∧
      VShowsMembers repr ks vs' ts'
end

/-! ### what a Dict takes from a value; `Entry` and `entriesOf` are in Spec/ValueSet.lean -/

/-- the entry supplies `v` for the field -/
def VSupplies (f : VSchema) (x : Entry) (v : PyVal) : Prop := ∃ n, f.name = some n ∧ x = .pair (.str n) v

/-- the key belongs to no field -/
def VUnknown (fs : List VSchema) (k : PyVal) : Prop := ∀ f ∈ fs, ∀ n, f.name = some n → k ≠ .str n

section
variable [Runtime]

/-- going through the entries stops at this one, with this exception -/
inductive VStopsAt (pol : Policy) (fs : List VSchema) : Entry → PyErr → Prop
  | bad (er) : VStopsAt pol fs (.bad er) er
  | unhashable {k v} : Unhashable k → VStopsAt pol fs (.pair k v) .type
  | unknown {k v} : ¬ Unhashable k → VUnknown fs k → pol ≠ .duck → VStopsAt pol fs (.pair k v) .key
  | field {f x v er} : f ∈ fs → VSupplies f x v → vSet f v = .error er → VStopsAt pol fs x er

/-- the field was not supplied -/
def VUnsupplied (f : VSchema) (l : List Entry) : Prop := ∀ x ∈ l, ∀ v, ¬ VSupplies f x v

/-- what is at a field that no value was supplied for: a Dict has a new element, a SparseDict only if it keeps its required fields
and this is one -/
def vUnsuppliedField (mode : DictMode) (f : VSchema) : VElem :=
  match mode with
  | .full => vFresh f
  | .sparse => .plain .absent
  | .sparseRequired => if f.hdr.optional then .plain .absent else vFresh f

/-- `kid` is what the entries leave at the field: the element of the last value supplied, if there is one -/
def VLeftAt (mode : DictMode) (f : VSchema) (l : List Entry) (kid : VElem) : Prop :=
  (VUnsupplied f l ∧ kid = vUnsuppliedField mode f) ∨
  ∃ pre x post v b, l = pre ++ x :: post ∧ VSupplies f x v ∧ VUnsupplied f post ∧ vSet f v = .ok (kid, b)

/-! ### what can be stored as a value -/

/-- the scalars take their own values again -/
def PlainKeeps (s : Schema) (e : Elem) : Prop := EachScalar (fun _ t st => ReAdapts t st) false s e

/-- a new joined string set from the text of this one has the same members -/
def JoinedKeeps (c : JoinedCfg) (ms : List ScalarState) : Prop :=
  ∃ ms' b, joinedSet c [] (.str (joinedText c ms)) = (ms', .ok b) ∧ dataOf ms = dataOf ms'

/-- the joined string takes its own text with True -/
def TakesText (c : JoinedCfg) (ms : List ScalarState) : Prop := (joinedSet c [] (.str (joinedText c ms))).2 = .ok true

/-- a new date set from the value of this one has the same children -/
def DateKeeps (doStrip : Bool) (ts : List ScalarType) (sts : List ScalarState) : Prop :=
  ∃ u v sts' b, dateView doStrip sts = .ok (u, v) ∧ dateSet doStrip ts (ts.map fun _ => .fresh) v = (sts', .ok b) ∧ dataOf sts = dataOf sts'

/-- the date takes its own value with True -/
def TakesValue (doStrip : Bool) (ts : List ScalarType) (sts : List ScalarState) : Prop :=
  ∃ u v, dateView doStrip sts = .ok (u, v) ∧ (dateSet doStrip ts (ts.map fun _ => .fresh) v).2 = .ok true

/-! ### defaults -/

mutual
/-- `e'` is what `set_default` makes of `e` -/
def VHoldsDefault : VSchema → VElem → VElem → Prop
  | .plain s, e, e' => ∃ x, e' = .plain x ∧ HoldsDefault s e.asPlain x
  | .joined h c, e, e' =>
    if h.dflt = .none ∨ h.dflt = some .none then e' = e
    else ∃ d vs ms, h.dflt = some d ∧ itemsOf d = some vs ∧ e' = .joined h.name c ms ∧ ms.length = vs.length ∧
      ∀ (i : Nat) v st, vs[i]? = some v → ms[i]? = some st → ∃ b, scalarSet c.member .fresh v = (st, .ok b)
  | .date h strip fs, e, e' =>
    if h.dflt = .none ∨ h.dflt = some .none then
      ∃ sts, e' = .date h.name strip sts ∧ sts.length = fs.length ∧
        ∀ (i : Nat) hk t st st', fs[i]? = some (hk, t) → e.parts[i]? = some st → sts[i]? = some st' →
          (hk.dflt = .none → st' = st) ∧ ∀ d, hk.dflt = some d → ∃ b, scalarSet t .fresh d = (st', .ok b)
    else ∃ d sts b, h.dflt = some d ∧ dateSet strip (fs.map Prod.snd) e.parts d = (sts, .ok b) ∧ e' = .date h.name strip sts
  | .dict h mode policy fs, e, e' =>
    if h.dflt = .none ∨ h.dflt = some .none then
      ∃ ks', e' = .dict h.name ks' ∧ match mode with
        | .full => VHoldDefaults fs e.kids ks'
        | .sparse => ks' = fs.map fun _ => .plain .absent
        | .sparseRequired => VHoldRequired fs ks'
    else ∃ d b, h.dflt = some d ∧ vSet (.dict h mode policy fs) d = .ok (e', b)
  | .list h prune max m, e, e' => match h.dflt with
    | .none => e' = e
    | some .none => e' = e
    | some (.int n) => ∃ ks', e' = .list h.name ks' ∧ ks'.length = n.toNat ∧ ∀ k ∈ ks', VHoldsDefault m (vFresh m) k
    | some (.bool b) => ∃ ks', e' = .list h.name ks' ∧ ks'.length = b.toNat ∧ ∀ k ∈ ks', VHoldsDefault m (vFresh m) k
    | some d => ∃ b, vSet (.list h prune max m) d = .ok (e', b)
  | .array h prune m, e, e' =>
    if h.dflt = .none ∨ h.dflt = some .none then e' = e
    else ∃ d b, h.dflt = some d ∧ vSet (.array h prune m) d = .ok (e', b)
/-- the children each hold their default -/
def VHoldDefaults : List VSchema → List VElem → List VElem → Prop
  | f :: fs, k :: ks, k' :: ks' => VHoldsDefault f k k' ∧ VHoldDefaults fs ks ks'
  | [], _, ks' => ks' = []
  | _ :: _, [], ks' => ks' = []
  | _ :: _, _ :: _, [] => False
/-- the required fields are there, newly made, with their default; the others are not -/
def VHoldRequired : List VSchema → List VElem → Prop
  | f :: fs, k' :: ks' => (if f.hdr.optional then k' = .plain .absent else VHoldsDefault f (vFresh f) k') ∧ VHoldRequired fs ks'
  | [], [] => True
  | _, _ => False
end

end
mutual
/-- every date consists of three fields -/
def ThreePartDates : VSchema → Prop
  | .date _ _ fs => fs.length = 3
  | .dict _ _ _ fs => ThreePartDatesAll fs
  | .list _ _ _ m | .array _ _ m => ThreePartDates m
  | _ => True
/-- see `ThreePartDates` -/
def ThreePartDatesAll : List VSchema → Prop
  | [] => True
  | f :: fs => ThreePartDates f ∧ ThreePartDatesAll fs
end

/-- does a new Dict of this kind have the field? -/
def hasField : DictMode → VSchema → Bool
  | .full, _ => true
  | .sparse, _ => false
  | .sparseRequired, f => !f.hdr.optional

mutual
/-- the value of a new form: no dates, empty joined strings, no members, and None for the scalars -/
def valueOfNew : VSchema → PyVal
  | .plain s => elemValue (fresh s)
  | .joined _ _ => .str []
  | .date _ _ _ => .none
  | .dict _ mode _ fs => .dict (itemsOfNew mode fs)
  | .list _ _ _ _ | .array _ _ _ => .list []
/-- see `valueOfNew` -/
def itemsOfNew (mode : DictMode) : List VSchema → List (PStr × PyVal)
  | [] => []
  | f :: fs => if hasField mode f then (f.name.getD [], valueOfNew f) :: itemsOfNew mode fs else itemsOfNew mode fs
end

end Flatland.Spec
