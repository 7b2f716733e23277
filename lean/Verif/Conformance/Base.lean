import Verif.Model.Values
import Verif.Model.ListOps
/-!
# Does the model do what the code does?

The modules of this directory run the model on the inputs of the project's own tests in /repo/tests, and compare with the results expected
there.  Nothing here is a property or a proof of one: they are examples, checked by the kernel, which tie the model to recorded behaviour of
the code (the code itself cannot be run here).  Each group names the test it is taken from.

Abbreviations for writing schemas and values as the tests do.
-/
namespace Flatland.Conf
open Flatland

attribute [local instance] Runtime.ascii

/-- a name, or None for '' [no code] -/
def nm (s : String) : Option PStr := if s = "" then .none else some s.toList

/-- header of a class with a name and a default [no code] -/
def hd (n : String) (d : Option PyVal := some .none) (optional : Bool := false) : Hdr := ⟨nm n, optional, d⟩

/-- `String.named(n).using(default=d)` [no code] -/
def str (n : String) (d : Option PyVal := some .none) (optional : Bool := false) : Schema := .scalar (hd n d optional) (stringType true)

/-- `Integer.named(n).using(default=d)` [no code] -/
def int (n : String) (d : Option PyVal := some .none) (optional : Bool := false) : Schema := .scalar (hd n d optional) (integerType true 0)

/-- `Dict.named(n).of(…)` [no code] -/
def dict (n : String) (fs : List Schema) (po : Policy := .subset) (d : Option PyVal := some .none) : Schema := .dict (hd n d) .full po fs

/-- `SparseDict.named(n).of(…)` [no code] -/
def sparse (n : String) (fs : List Schema) (po : Policy := .subset) (d : Option PyVal := some .none) : Schema := .dict (hd n d) .sparse po fs

/-- `List.named(n).of(m)` [no code] -/
def list (n : String) (m : Schema) (prune : Bool := true) (max : Nat := 1024) (d : Option PyVal := some .none) : Schema := .list (hd n d) prune max m

/-- `Array.named(n).of(m)` [no code] -/
def array (n : String) (m : Schema) (prune : Bool := true) (d : Option PyVal := some .none) : Schema := .array (hd n d) prune m

/-- texts as values [no code] -/
def s (t : String) : PyVal := .str t.toList

/-- a list of ints as value [no code] -/
def ints (is : List Int) : PyVal := .list (is.map .int)

/-- a list of texts as value [no code] -/
def strs (ts : List String) : PyVal := .list (ts.map s)

/-- a dict as value [no code] -/
def dct (kvs : List (String × PyVal)) : PyVal := .dict (kvs.map fun x => (x.1.toList, x.2))

/-- flat pairs [no code] -/
def flat (ps : List (String × String)) : List (PStr × PStr) := ps.map fun x => (x.1.toList, x.2.toList)

/-- the separator of flat names, '_' [schema/base.py:298] -/
def us : PStr := ['_']

/-- the value of what an operation gives [no code] -/
def valueOf (r : Except PyErr Elem) : Except PyErr PyVal := r.map elemValue

/-- value, and what `set` returned [no code] -/
def setResult (r : Except PyErr (Elem × Bool)) : Except PyErr (PyVal × Bool) := r.map fun x => (elemValue x.1, x.2)

/-- `repr(u'…')` of Python 2 for texts without quotes, as in the tests [util/base.py:13-21] -/
def urepr (t : PStr) : PStr := 'u' :: '\'' :: t ++ ['\'']

/-- `repr('…')` of Python 3 for texts without quotes [Python] -/
def prepr (t : PStr) : PStr := '\'' :: t ++ ['\'']

end Flatland.Conf
