import Verif.Model.Messages
import Verif.Spec.Scalars
/-! Specifications for validation messages. -/
namespace Flatland.Spec
open Flatland

/-- a part of a message: text shown as it is, or the value of a key -/
inductive Piece
  | lit (s : PStr)
  | key (k : PStr)

/-- how a message is written: `%` doubled in text, `%(key)s` for a key -/
def Piece.template : Piece → PStr
  | .lit s => s.flatMap fun c => if c = '%' then ['%', '%'] else [c]
  | .key k => '%' :: '(' :: k ++ [')', 's']

/-- keys contain no parentheses -/
def Piece.ok : Piece → Prop
  | .lit _ => True
  | .key k => ∀ c ∈ k, c ≠ '(' ∧ c ≠ ')'

/-- what is shown, given the values of the keys -/
def Piece.shown [Runtime] (value : PStr → PyVal) : Piece → PStr
  | .lit s => s
  | .key k => pyText (value k)

/-- indexing with the key is impossible, or fails with a LookupError or TypeError -/
def NoItem (t : Target) (k : PStr) : Prop :=
  ∀ get, t.item = some get → ∃ er, get k = .error er ∧ (er = .key ∨ er = .index ∨ er = .lookup ∨ er = .type)

/-- the object has the key: as an item, or – if it has no such item – as an attribute -/
def Offers (t : Target) (k : PStr) (v : PyVal) : Prop :=
  (∃ get, t.item = some get ∧ get k = .ok v) ∨ (NoItem t k ∧ t.attr k = .ok v)

/-- the object has neither an item nor an attribute of the name -/
def Lacks (t : Target) (k : PStr) : Prop := NoItem t k ∧ t.attr k = .error .attribute

/-- the first of the objects that has the key at all has this value for it -/
def FirstOffer (ts : List Target) (k : PStr) (v : PyVal) : Prop :=
  ∃ pre t post, ts = pre ++ t :: post ∧ (∀ p ∈ pre, Lacks p k) ∧ Offers t k v

/-- looking the name up in the object raises: as an item, with something that does not mean that there is none, or as an attribute, with something else than
an AttributeError -/
def LookupFails (t : Target) (k : PStr) (er : PyErr) : Prop :=
  (∃ get, t.item = some get ∧ get k = .error er ∧ er ∉ [PyErr.key, .index, .lookup, .type]) ∨ (NoItem t k ∧ t.attr k = .error er ∧ er ≠ .attribute)

/-- there is no message, or an empty text -/
def Silent (m : MsgAttr) : Prop := m = .none ∨ m = .fixed (.single [])

/-- the number a value stands for: an int itself, True 1, False 0, and a text that is a numeral the number it denotes -/
inductive CountOf [Runtime] : PyVal → Int → Prop
  | int {i} : CountOf (.int i) i
  | yes : CountOf (.bool true) 1
  | no : CountOf (.bool false) 0
  | text {s i} : IntText s i → CountOf (.str s) i

end Flatland.Spec
