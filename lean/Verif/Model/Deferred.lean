import Verif.Model.Mappings
import Verif.Model.PyList
import Verif.Model.Markup
/-! Packages that load their submodules on first access: flatland/util/deferred.py, as used by flatland/util/__init__.py.

Simplifications.  The submodules' own members do not change once loaded, and a submodule that can be loaded can always be loaded (and brings the same
others with it).  Nobody assigns to or deletes from the package.  Modules outside the package are not considered.  The members of a submodule are
read when it has been loaded completely. -/
namespace Flatland

/-- what a name of the package can stand for: what every module has, a given attribute or member, a submodule [util/deferred.py:19-36] -/
inductive PkgVal
  | std (k : PStr)
  | val (v : PyVal)
  | module (s : PStr)
  deriving DecidableEq

/-- the exceptions of an access: the message of `__getattr__`, that of a submodule without the member, the failing import, and recursion without end
[util/deferred.py:40-49] -/
inductive PkgErr
  | noAttribute (k : PStr)
  | noMember (s k : PStr)
  | importing (s : PStr)
  | recursion
  deriving DecidableEq

/-- the arguments of `deferred_module.shadow`: the dict in the order of its iteration, and the keyword arguments; `std` are the names every module has,
and the private ones [util/deferred.py:13-30] -/
structure Package where
  deferred : List (PStr × List PStr)
  given : PyDict PStr PyVal
  std : List PStr

/-- the files of the package: the submodules that importing one loads, itself among them if it can be imported; and what they define [no code] -/
structure Files where
  imports : PStr → List PStr
  member : PStr → PStr → Option PyVal

/-- the package's `__dict__`, and the submodules in `sys.modules` [Python, no code] -/
structure PkgState where
  dict : PyDict PStr PkgVal
  loaded : List PStr

/-- `__pushed_up` [util/deferred.py:31-35] -/
def pushedUp (p : Package) : PyDict PStr PStr :=
  p.deferred.foldl (fun d e => e.2.foldl (fun d m => dictPut d m e.1) d) []

/-- `__all__` [util/deferred.py:31-36] -/
def allNames (p : Package) : List PStr := p.deferred.flatMap fun e => e.1 :: e.2

/-- `__init__`: the given attributes, then those of every module; some submodules have been loaded before [util/deferred.py:13-30] -/
def pkgStart (p : Package) (initial : List PStr) : PkgState where
  dict := p.std.foldl (fun d k => dictPut d k (.std k)) (p.given.map fun e => (e.1, .val e.2))
  loaded := initial

/-- a submodule has been loaded: Python binds it in its package [Python's importlib `_find_and_load_unlocked`] -/
def bindLoaded (st : PkgState) (s : PStr) : PkgState :=
  if s ∈ st.loaded then st else ⟨dictPut st.dict s (.module s), st.loaded ++ [s]⟩

/-- `__import__('package.s')` [Python; util/deferred.py:46-47] -/
def importSub (f : Files) (st : PkgState) (s : PStr) : PkgState × Except PkgErr Unit :=
  if s ∈ st.loaded then (st, .ok ())
  else ((f.imports s).foldl bindLoaded st, if s ∈ f.imports s then .ok () else .error (.importing s))

/-- `getattr(package, k)`: `__getattr__` is called for what is not in `__dict__`; the number is the depth of recursion Python allows
[util/deferred.py:38-54] -/
def pkgAccess (f : Files) (p : Package) : Nat → PkgState → PStr → PkgState × Except PkgErr PkgVal
  | fuel, st, k => match dictGet st.dict k with
    | some v => (st, .ok v)
    | .none => match fuel with
      | 0 => (st, .error .recursion)
      | n + 1 => match dictGet (pushedUp p) k with
        | some owner => match pkgAccess f p n st owner with
          | (st', .error e) => (st', .error e)
          | (st', .ok (.module s)) => match f.member s k with
            | some v => ({ st' with dict := dictPut st'.dict k (.val v) }, .ok (.val v))
            | .none => (st', .error (.noMember s k))
          | (st', .ok _) => (st', .error (.noMember owner k))
        | .none => if k ∈ allNames p then
            match importSub f st k with
            | (st', .ok _) => ({ st' with dict := dictPut st'.dict k (.module k) }, .ok (.module k))
            | (st', .error e) => (st', .error e)
          else (st, .error (.noAttribute k))

/-- names that `__dir__` hides [util/deferred.py:54] -/
def hidden (k : PStr) : Bool := "_deferred_module".toList.isPrefixOf k

/-- `set(..)`, in some order [Python] -/
def distinct : List PStr → List PStr
  | [] => []
  | k :: r => if k ∈ distinct r then distinct r else k :: distinct r

/-- `__dir__` [util/deferred.py:52-54] -/
def pkgDir (p : Package) (st : PkgState) : List PStr :=
  (pySort strLt id false (distinct (allNames p ++ dictKeys st.dict))).filter fun k => !hidden k

/-- what happens to a package: an access, or an import statement somewhere [no code] -/
inductive PkgOp
  | access (k : PStr)
  | import_ (s : PStr)

/-- one of them [util/deferred.py:38-54] -/
def pkgStep (f : Files) (p : Package) (fuel : Nat) (st : PkgState) : PkgOp → PkgState
  | .access k => (pkgAccess f p fuel st k).1
  | .import_ s => (importSub f st s).1

/-- `from package import *`: every name of `__all__` in turn [Python; util/deferred.py:24-36] -/
def importStar (f : Files) (p : Package) (fuel : Nat) : PkgState → List PStr → PkgState × Except PkgErr (List (PStr × PkgVal))
  | st, [] => (st, .ok [])
  | st, k :: r => match pkgAccess f p fuel st k with
    | (st', .error e) => (st', .error e)
    | (st', .ok v) => match importStar f p fuel st' r with
      | (st'', .ok l) => (st'', .ok ((k, v) :: l))
      | (st'', .error e) => (st'', .error e)

/-- flatland.util [util/__init__.py:5-33] -/
def utilPackage : Package where
  deferred := [("base".toList, ["Maybe".toList, "Unspecified".toList, "adict".toList, "as_mapping".toList, "assignable_class_property".toList,
      "assignable_property".toList, "autodocument_from_superclasses".toList, "class_cloner".toList, "decorator".toList, "decode_repr".toList,
      "format_argspec_plus".toList, "keyslice_pairs".toList, "lazy_property".toList, "luhn10".toList, "named_int_factory".toList,
      "re_ucompile".toList, "re_uescape".toList, "symbol".toList, "threading".toList, "to_pairs".toList]),
    ("deferred".toList, ["deferred_module".toList])]
  given := []
  std := ["__name__".toList, "__doc__".toList, "_deferred_module__shadowing".toList, "__all__".toList, "_deferred_module__pushed_up".toList,
    "__file__".toList, "__path__".toList]

/-- the names bound in flatland/util/base.py [util/base.py:2-436], in flatland/util/deferred.py:1-9, and that the two can be imported -/
def utilFiles : Files where
  imports s := if s = "base".toList ∨ s = "deferred".toList then [s] else []
  member s k := if (s = "base".toList ∧ k ∈ ["re".toList, "string".toList, "sys".toList, "six".toList, "threading".toList, "decode_repr".toList,
      "lazy_property".toList, "assignable_property".toList, "assignable_class_property".toList, "class_cloner".toList, "as_mapping".toList, "adict".toList, "re_ucompile".toList,
      "_alphanum".toList, "re_uescape".toList, "luhn10".toList, "to_pairs".toList, "keyslice_pairs".toList, "Unspecified".toList, "Maybe".toList,
      "named_int_factory".toList, "autodocument_from_superclasses".toList, "_symbol".toList, "symbol".toList]) ∨
      (s = "deferred".toList ∧ k ∈ ["sys".toList, "ModuleType".toList, "six".toList, "deferred_module".toList]) then some (.str k) else .none

end Flatland
