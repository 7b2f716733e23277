import Verif.Model.Attributes
/-! What attributes of elements and classes should be, from what a program has done so far (newest first). -/
namespace Flatland.Spec

/-- what a program did and saw, newest first -/
abbrev AttrHistory := List (AttrOp × Except PyErr AttrGot)

/-- the value given last for a name -/
def lastGiven (pairs : List (PStr × PyVal)) (k : PStr) : Option PyVal := (pairs.reverse.find? fun p => p.1 = k).map (·.2)

/-- a class and its bases -/
def lineage : AttrHistory → Nat → List Nat
  | [], c => [c]
  | (.subclass p _, .ok (.made n)) :: h, c => if n = c then c :: lineage h p else lineage h c
  | _ :: h, c => lineage h c

/-- the value assigned to a class itself; the first class is given with some -/
def classOwn (root : PyDict PStr Slot) : AttrHistory → Nat → PStr → Option PyVal
  | [], c, k => if c = 0 then match dictGet root k with
    | some (.plain v) => some v
    | _ => .none
    else .none
  | (.subclass _ overrides, .ok (.made n)) :: h, c, k => if n = c then lastGiven overrides k else classOwn root h c k
  | (.setClass c' k' v, .ok _) :: h, c, k => if c' = c ∧ k' = k then some v else classOwn root h c k
  | _ :: h, c, k => classOwn root h c k

/-- the value assigned to a class or the nearest of its bases that has one -/
def classValue (root : PyDict PStr Slot) (h : AttrHistory) (c : Nat) (k : PStr) : Option PyVal :=
  (lineage h c).findSome? fun b => classOwn root h b k

/-- the class an object was made of -/
def madeOf : AttrHistory → Nat → Nat
  | [], _ => 0
  | (.make c _, .ok (.made n)) :: h, i => if n = i then c else madeOf h i
  | _ :: h, i => madeOf h i

/-- is the attribute a lazy property for the class? -/
def isLazy (root : PyDict PStr Slot) (h : AttrHistory) (c : Nat) (k : PStr) : Bool :=
  match dictGet root k with
  | some .lazy => (classValue root h c k).isNone
  | _ => false

/-- The value an object has of its own: what was assigned last, unless it was deleted since; a lazy property counts as assigned when it is read. -/
def objectOwn (root : PyDict PStr Slot) : AttrHistory → Nat → PStr → Option PyVal
  | [], _, _ => .none
  | (.make _ keywords, .ok (.made n)) :: h, i, k => if n = i then lastGiven keywords k else objectOwn root h i k
  | (.set i' k' v, .ok _) :: h, i, k => if i' = i ∧ k' = k then some v else objectOwn root h i k
  | (.del i' k', .ok _) :: h, i, k => if i' = i ∧ k' = k then .none else objectOwn root h i k
  | (.get i' k', .ok (.val v)) :: h, i, k =>
    if i' = i ∧ k' = k ∧ isLazy root h (madeOf h i) k = true then some v else objectOwn root h i k
  | _ :: h, i, k => objectOwn root h i k

/-- an attribute for which nothing was assigned: computed, or missing -/
def fallback (g : Getters) (root : PyDict PStr Slot) (w : AWorld) (i : Nat) (k : PStr) : Except PyErr PyVal :=
  match dictGet root k with
  | some .computed => .ok (g.inst k w i)
  | some .instComputed => .ok (g.inst k w i)
  | some .lazy => .ok (g.inst k w i)
  | _ => .error .attribute

/-- what reading an attribute of an object should give: the object's own value, else that of its class, else the computed one -/
def readObject (g : Getters) (root : PyDict PStr Slot) (w : AWorld) (h : AttrHistory) (i : Nat) (k : PStr) : Except PyErr PyVal :=
  match objectOwn root h i k with
  | some v => .ok v
  | .none => match classValue root h (madeOf h i) k with
    | some v => .ok v
    | .none => fallback g root w i k

/-- what reading an attribute of a class should give -/
def readClass (g : Getters) (root : PyDict PStr Slot) (w : AWorld) (h : AttrHistory) (c : Nat) (k : PStr) : Except PyErr AttrGot :=
  match classValue root h c k with
  | some v => .ok (.val v)
  | .none => match dictGet root k with
    | some .computed => .ok (.val (g.cls k w c))
    | some .instComputed => .ok (.val .none)
    | some .cloner => .ok .method
    | some .lazy => .ok .descriptor
    | _ => .error .attribute

/-- `Element` as far as labels go: a name, which is None, and a label, which is computed -/
def elementRoot : PyDict PStr Slot := [("name".toList, .plain .none), ("label".toList, .computed), ("named".toList, .cloner), ("using".toList, .cloner)]

/-- a program was run from the start: the world, and what it did and saw -/
def ran (g : Getters) (root : PyDict PStr Slot) (ops : List AttrOp) : AWorld × AttrHistory := attrRun g (attrStart root) [] ops

/-- a keyword the constructor of a class takes: anything given a value in a class, and what is computed; not the methods that make classes -/
def TakesKeyword (root : PyDict PStr Slot) (h : AttrHistory) (c : Nat) (k : PStr) : Prop :=
  classValue root h c k ≠ none ∨ ∃ s, dictGet root k = some s ∧ s ≠ .cloner

/-- a keyword `using` takes: everything there is -/
def TakesOverride (root : PyDict PStr Slot) (h : AttrHistory) (c : Nat) (k : PStr) : Prop :=
  classValue root h c k ≠ none ∨ dictGet root k ≠ none

/-- the first that is given -/
def firstGiven : List (Option PyVal) → PyVal
  | [] => .none
  | some v :: _ => v
  | .none :: r => firstGiven r

end Flatland.Spec
