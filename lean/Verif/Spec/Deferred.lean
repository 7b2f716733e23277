import Verif.Model.Deferred
/-! What a lazily loading package should look like from outside. -/
namespace Flatland.Spec

/-- the submodule a name is taken from; the last that lists it -/
def ownerOf (p : Package) (k : PStr) : Option PStr := (p.deferred.reverse.find? fun e => k ∈ e.2).map (·.1)

/-- a submodule the package announces -/
def Listed (p : Package) (s : PStr) : Prop := ∃ e ∈ p.deferred, e.1 = s
instance (p : Package) (s : PStr) : Decidable (Listed p s) := by unfold Listed; infer_instance

/-- the submodule an access or import statement asks for -/
def asked (p : Package) : PkgOp → List PStr
  | .import_ s => [s]
  | .access k => if k ∈ p.std ∨ k ∈ dictKeys p.given then [] else match ownerOf p k with
    | some o => [o]
    | .none => if Listed p k then [k] else []

/-- the submodules loaded by now: those from before, and what was asked for with what these import -/
def Loaded (f : Files) (p : Package) (initial : List PStr) (ops : List PkgOp) (s : PStr) : Prop :=
  s ∈ initial ∨ ∃ op ∈ ops, ∃ t ∈ asked p op, s ∈ f.imports t

/-- A package without conflicts of names, the files in it, and the submodules loaded before: no submodule has the name of an attribute; what loading a
submodule loads can be loaded itself, and does not load more. -/
structure PlainPackage (f : Files) (p : Package) (initial : List PStr) : Prop where
  names : ∀ s, s ∈ f.imports s ∨ Listed p s → ownerOf p s = none ∧ s ∉ p.std ∧ s ∉ dictKeys p.given
  loads : ∀ s, ∀ t ∈ f.imports s, t ∈ f.imports t ∧ ∀ u ∈ f.imports t, u ∈ f.imports s
  before : ∀ s ∈ initial, s ∈ f.imports s ∧ ∀ t ∈ f.imports s, t ∈ initial
  distinct : (dictKeys p.given).Nodup

/-- What the name stands for, or the exception: `arrived` says whether it is a submodule that has been imported. -/
def pkgAnswer (f : Files) (p : Package) (arrived : Bool) (k : PStr) : Except PkgErr PkgVal :=
  if k ∈ p.std then .ok (.std k) else match dictGet p.given k with
    | some v => .ok (.val v)
    | .none => match ownerOf p k with
      | some o => if o ∈ f.imports o then match f.member o k with
          | some v => .ok (.val v)
          | .none => .error (.noMember o k)
        else .error (.importing o)
      | .none => if Listed p k then (if k ∈ f.imports k then .ok (.module k) else .error (.importing k))
        else if arrived then .ok (.module k) else .error (.noAttribute k)

/-- the package after a program -/
def pkgAfter (f : Files) (p : Package) (fuel : Nat) (initial : List PStr) (ops : List PkgOp) : PkgState :=
  ops.foldl (pkgStep f p fuel) (pkgStart p initial)

end Flatland.Spec
