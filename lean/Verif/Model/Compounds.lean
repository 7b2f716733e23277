import Verif.Model.Values
/-
Model of flatland/schema/compound.py:157-330: Compound.set, DateYYYYMMDD and JoinedString.

The children of a DateYYYYMMDD are three scalars in the order of its `field_schema` (compound.py:199-217 fills it up to three), of any
classes; the members of a JoinedString are scalars.  Not modelled: `separator_regex` patterns with groups that may not take part (their
parts would be None); `.raw` of these elements.
-/
namespace Flatland

/-! ### DateYYYYMMDD -/

/-- the classes of the children when none are given: Integers of formats %04i, %02i, %02i (compound.py:207-215) -/
def ymdTypes [Runtime] : List ScalarType := [integerType true 4, integerType true 2, integerType true 2]

/-- the number that `%i` shows; TypeError for anything that is not a number [Python % formatting; used at schema/compound.py:228] -/
def numberOf [Runtime] : PyVal → Except PyErr Int
  | .int i => .ok i
  | .bool b => .ok (if b then 1 else 0)
  | .obj n => Runtime.intObj (.obj n)
  | _ => .error .type

/-- `self.format % data` (compound.py:225-228), `'%(year)04i-%(month)02i-%(day)02i'` -/
def formatYMD [Runtime] : List PyVal → Except PyErr PStr
  | [y, m, d] => match numberOf y with
    | .error er => .error er
    | .ok y => match numberOf m with
      | .error er => .error er
      | .ok m => match numberOf d with
        | .error er => .error er
        | .ok d => .ok (padInt 4 y ++ '-' :: (padInt 2 m ++ '-' :: padInt 2 d))
  | _ => .error .key

/-- the exceptions caught by `compose` and `explode` (compound.py:232, 242) -/
def ymdCatches : PyErr → Bool
  | .adaptation | .type => true
  | _ => false

/-- `DateYYYYMMDD.compose` (compound.py:223-233): text and value from the values of the children -/
def composeDate [Runtime] (doStrip : Bool) (vals : List PyVal) : Except PyErr (PStr × PyVal) :=
  match formatYMD vals with
  | .error er => if ymdCatches er then .ok ([], .none) else .error er
  | .ok s => match (dateType doStrip).adapt (.str s) with
    | .error er => if ymdCatches er then .ok ([], .none) else .error er
    | .ok v => .ok (s, v)

/-- `getattr(value, attrib)` for year, month and day (compound.py:239-241) -/
def dateParts : PyVal → Except PyErr (List PyVal)
  | .date y m d => .ok [.int y, .int m, .int d]
  | .datetime y m d _ _ _ _ => .ok [.int y, .int m, .int d]
  | _ => .error .attribute

/-- set the children one after the other; the exception of the first that raises [schema/compound.py:239-244] -/
def setKids [Runtime] : List ScalarType → List ScalarState → List PyVal → List ScalarState × Option PyErr
  | t :: ts, st :: sts, v :: vs => match scalarSet t st v with
    | (st', .error er) => (st' :: sts, some er)
    | (st', .ok _) => (st' :: (setKids ts sts vs).1, (setKids ts sts vs).2)
  | _, sts, _ => (sts, .none)

/-- `DateYYYYMMDD.explode` (compound.py:235-244): the children afterwards, and the exception if one escapes -/
def explodeDate [Runtime] (doStrip : Bool) (ts : List ScalarType) (sts : List ScalarState) (v : PyVal) : List ScalarState × Option PyErr :=
  match (dateType doStrip).adapt v with
  | .error er => if ymdCatches er then setKids ts sts [.none, .none, .none] else (sts, some er)
  | .ok w => match dateParts w with
    | .error er => (sts, some er)
    | .ok parts => match setKids ts sts parts with
      | (sts', .none) => (sts', .none)
      | (sts', some er) => if ymdCatches er then setKids ts sts' [.none, .none, .none] else (sts', some er)

/-- `Compound.set` (compound.py:167-178): True, or False after an exception -/
def dateSet [Runtime] (doStrip : Bool) (ts : List ScalarType) (sts : List ScalarState) (v : PyVal) : List ScalarState × Except PyErr Bool :=
  match explodeDate doStrip ts sts v with
  | (sts', .none) => (sts', .ok true)
  | (sts', some .notImplemented) => (sts', .error .notImplemented)
  | (sts', some _) => (sts', .ok false)

/-- `(el.u, el.value)` (compound.py:147-159) -/
def dateView [Runtime] (doStrip : Bool) (sts : List ScalarState) : Except PyErr (PStr × PyVal) := composeDate doStrip (sts.map ScalarState.value)

/-! ### JoinedString -/

/-- class attributes of a JoinedString (compound.py:268-294); `regex` is `separator_regex.split` -/
structure JoinedCfg where
  separator : PStr := [',']
  regex : Option (PStr → List PStr) := .none
  prune : Bool := true
  member : ScalarType

/-- the values given to `set`, one per member (compound.py:297-306); `text.split('')` is a ValueError -/
def joinedValues (c : JoinedCfg) : PyVal → Except PyErr (List PyVal)
  | .list xs => .ok xs
  | .str s => match c.regex with
    | some f => .ok ((f s).map .str)
    | .none => if c.separator = [] then .error .value else .ok ((pySplit c.separator s).map .str)
  | v => pyIter v

/-- the loop of `JoinedString.set` (compound.py:311-317): the members appended, and the result -/
def joinedLoop [Runtime] (c : JoinedCfg) : List PyVal → List ScalarState × Except PyErr Bool
  | [] => ([], .ok true)
  | v :: vs =>
    if c.prune && !truthy v then joinedLoop c vs
    else match scalarSet c.member .fresh v with
      | (_, .error er) => ([], .error er)
      | (st, .ok ok) => (st :: (joinedLoop c vs).1, (joinedLoop c vs).2.map fun rest => ok && rest)

/-- `JoinedString.set` (compound.py:296-317) on a string with the given members -/
def joinedSet [Runtime] (c : JoinedCfg) (members : List ScalarState) (v : PyVal) : List ScalarState × Except PyErr Bool :=
  match joinedValues c v with
  | .error er => (members, .error er)
  | .ok vs => joinedLoop c vs

/-- `JoinedString.value` and `.u` (compound.py:322-330) -/
def joinedText (c : JoinedCfg) (members : List ScalarState) : PStr := pyJoin c.separator (members.map ScalarState.u)

/-- `JoinedString._set_flat` (compound.py:319-320, scalars.py:123-127): `set` with the value of the first pair of its name -/
def joinedSetFlat [Runtime] (c : JoinedCfg) (name : PStr) (members : List ScalarState) : List (PStr × PStr) → List ScalarState × Except PyErr Bool
  | [] => (members, .ok true)
  | (k, v) :: ps => if k = name then joinedSet c members (.str v) else joinedSetFlat c name members ps

/-- `flatten()` of a named JoinedString: its own pair only, as `children_flattenable` is False (compound.py:293-294, base.py:651-699) -/
def joinedFlatten (c : JoinedCfg) (name : PStr) (members : List ScalarState) : List (PStr × PStr) := [(name, joinedText c members)]

end Flatland
