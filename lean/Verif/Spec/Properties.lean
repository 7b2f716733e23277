import Verif.Model.Properties
/-! Specification of class and instance properties, in terms of what was last said about a key where. -/
namespace Flatland.Spec
open Flatland

variable {C D I K V : Type} [DecidableEq C] [DecidableEq D] [DecidableEq I] [DecidableEq K]

/-- what has been said about a key at one place: nothing (`none`), that it is deleted, or its value -/
abbrev Mark (V : Type) := Option (Option V)

/-- everything said so far: at the classes, and at the instances; an instance may be closed, that is, cut off from its class -/
structure Marks (C I K V : Type) where
  cls : C → K → Mark V
  inst : I → K → Mark V
  closed : I → Bool

/-- the class whose `properties` declaration a class uses: the first in its MRO that has one -/
def declarer (w : PropWorld C D I K V) (c : C) : Option C := (w.mro c).find? fun a => (w.member a).isSome

/-- the classes up to and including the first one that has a declaration -/
def upTo (w : PropWorld C D I K V) : List C → List C
  | [] => []
  | a :: as => if (w.member a).isSome then [a] else a :: upTo w as

/-- the classes a class inherits properties from, itself first: those of its MRO up to the declaring one that use the same
declaration -/
def scope (w : PropWorld C D I K V) (c : C) : List C := (upTo w (w.mro c)).filter fun a => decide (declarer w a = declarer w c)

/-- the mark of the most derived class that has one -/
def classMark (w : PropWorld C D I K V) (m : Marks C I K V) (c : C) (k : K) : Mark V := (scope w c).findSome? fun a => m.cls a k

/-- the value seen at a class -/
def classSees (w : PropWorld C D I K V) (m : Marks C I K V) (c : C) (k : K) : Option V := (classMark w m c k).join

/-- the value seen at an instance: its own mark, else its class's -/
def instSees (w : PropWorld C D I K V) (m : Marks C I K V) (i : I) (k : K) : Option V :=
  match m.inst i k with
  | some x => x
  | none => if m.closed i then none else classSees w m (w.classOf i) k

/-- the value seen -/
def sees (w : PropWorld C D I K V) (m : Marks C I K V) : PropTarget C I → K → Option V
  | .cls c, k => if (declarer w c).isSome then classSees w m c k else none
  | .inst i, k => if (declarer w (w.classOf i)).isSome then instSees w m i k else none

/-- at first: the values the declaration was made with (the last one given for a key), at the declaring class -/
def startMarks (w : PropWorld C D I K V) : Marks C I K V where
  cls c k := match w.member c with
    | none => none
    | some d => (dictGet (dictOf (w.initial d)) k).map some
  inst _ _ := none
  closed _ := false

/-- say something about a key at a class -/
def markClass (m : Marks C I K V) (c : C) (k : K) (x : Mark V) : Marks C I K V :=
  { m with cls := fun c' k' => if c' = c ∧ k' = k then x else m.cls c' k' }

/-- say something about a key at an instance -/
def markInst (m : Marks C I K V) (i : I) (k : K) (x : Mark V) : Marks C I K V :=
  { m with inst := fun i' k' => if i' = i ∧ k' = k then x else m.inst i' k' }

/-- say something about a key -/
def mark (m : Marks C I K V) : PropTarget C I → K → Mark V → Marks C I K V
  | .cls c => markClass m c
  | .inst i => markInst m i

/-- delete all that is seen at a class -/
def clearClass (w : PropWorld C D I K V) (m : Marks C I K V) (c : C) : Marks C I K V :=
  { m with cls := fun c' k => if c' = c ∧ (classSees w m c k).isSome then some none else m.cls c' k }

/-- delete all that is seen at an instance; what it does not inherit need not be marked -/
def clearInst (w : PropWorld C D I K V) (m : Marks C I K V) (i : I) : Marks C I K V :=
  { m with inst := fun i' k => if i' = i then (if !m.closed i ∧ (classSees w m (w.classOf i) k).isSome then some none else none) else m.inst i' k }

/-- delete all that is seen -/
def clearAll (w : PropWorld C D I K V) (m : Marks C I K V) : PropTarget C I → Marks C I K V
  | .cls c => clearClass w m c
  | .inst i => clearInst w m i

/-- the result of reading -/
def readRes (x : Option V) : PropRes V := match x with | none => .keyError | some v => .value (some v)

/-- what each operation should do at a place whose properties are those of a dict that inherits -/
def specOp (w : PropWorld C D I K V) (m : Marks C I K V) (t : PropTarget C I) : PropOp K V → Marks C I K V × PropRes V
  | .get k => (m, readRes (sees w m t k))
  | .set k v => (mark m t k (some (some v)), .done)
  | .del k => match sees w m t k with
    | none => (m, .keyError)
    | some _ => (mark m t k (some none), .done)
  | .clear => (clearAll w m t, .done)
  | .pop k default => match sees w m t k with
    | some v => (mark m t k (some none), .value (some v))
    | none => (m, readRes default)
  | .setdefault k v => match sees w m t k with
    | some x => (m, .value (some x))
    | none => (mark m t k (some (some v)), .value (some v))
  | .update pairs => (pairs.foldl (fun m p => mark m t p.1 (some (some p.2))) m, .done)

/-- a step -/
def specStep (w : PropWorld C D I K V) (m : Marks C I K V) : PropStep C I K V → Marks C I K V × PropRes V
  | .cls c op => if (declarer w c).isSome then specOp w m (.cls c) op else (m, .attributeError)
  | .inst i op => if (declarer w (w.classOf i)).isSome then specOp w m (.inst i) op else (m, .attributeError)
  | .assign i pairs =>
    ({ m with inst := fun j k => if j = i then (dictGet (dictOf pairs) k).map some else m.inst j k,
              closed := fun j => if j = i then true else m.closed j }, .done)

/-- a program -/
def specRun (w : PropWorld C D I K V) : Marks C I K V → List (PropStep C I K V) → Marks C I K V × List (PropRes V)
  | m, [] => (m, [])
  | m, p :: ps => ((specRun w (specStep w m p).1 ps).1, (specStep w m p).2 :: (specRun w (specStep w m p).1 ps).2)

/-- all steps but `setdefault`, and `pop` on an instance -/
def Regular : PropStep C I K V → Prop
  | .cls _ (.setdefault _ _) => False
  | .inst _ (.setdefault _ _) => False
  | .inst _ (.pop _ _) => False
  | _ => True

/-- no `Properties` object is the member of two classes -/
def OwnDeclarations (w : PropWorld C D I K V) : Prop := ∀ a b d, w.member a = some d → w.member b = some d → a = b

/-- a class comes first in its own MRO -/
def SelfFirst (w : PropWorld C D I K V) : Prop := ∀ c, ∃ cs, w.mro c = c :: cs

end Flatland.Spec
