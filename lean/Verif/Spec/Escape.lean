import Verif.Model.Escape
/-
What an XML or HTML reader makes of a text.
-/
namespace Flatland.Spec
open Flatland

/-- the character an entity stands for -/
def entityChar (name : PStr) : Option Char :=
  if name = "amp".toList then some '&'
  else if name = "lt".toList then some '<'
  else if name = "gt".toList then some '>'
  else if name = "quot".toList then some '"'
  else if name = "#10".toList then some '\n'
  else if name = "#13".toList then some '\r'
  else if name = "#9".toList then some '\t'
  else .none

/-- A strict reader.  `ent` holds the name of the entity being read (backwards), if any.  A raw angle bracket, an unfinished or unknown
entity, and — when `quotes` is false — a raw double quote are errors. -/
def readGo (quotes : Bool) : Option PStr → PStr → Option PStr
  | .none, [] => some []
  | some _, [] => .none
  | .none, c :: r =>
    if c = '&' then readGo quotes (some []) r
    else if c = '<' ∨ c = '>' ∨ (c = '"' ∧ quotes = false) then .none
    else (readGo quotes .none r).map (c :: ·)
  | some n, c :: r =>
    if c = ';' then
      match entityChar n.reverse with
      | some x => (readGo quotes .none r).map (x :: ·)
      | .none => .none
    else readGo quotes (some (c :: n)) r

/-- reading the inside of a double-quoted attribute -/
def readAttr (s : PStr) : Option PStr := readGo false .none s

/-- reading text between tags -/
def readText (s : PStr) : Option PStr := readGo true .none s

/-- a name as it occurs in a tag -/
def nameChar (c : Char) : Bool := !(c ∈ [' ', '>', '<', '/', '=', '"', '&'])

/-- Reading the attributes of a tag, up to and including its `>` or ` />`: pairs, and what follows. -/
def readAttrs : Nat → PStr → Option (List (PStr × PStr) × PStr)
  | 0, _ => .none
  | n + 1, s =>
    match s with
    | '>' :: r => some ([], r)
    | ' ' :: '/' :: '>' :: r => some ([], r)
    | ' ' :: r =>
      match r.dropWhile nameChar with
      | '=' :: '"' :: r' =>
        match readAttr (r'.takeWhile (· ≠ '"')), r'.dropWhile (· ≠ '"') with
        | some v, _ :: r'' => (readAttrs n r'').map fun (as, rest) => ((r.takeWhile nameChar, v) :: as, rest)
        | _, _ => .none
      | _ => .none
    | _ => .none

/-- Reading an opening tag: its name, its attributes, and what follows. -/
def readTag (s : PStr) : Option (PStr × List (PStr × PStr) × PStr) :=
  match s with
  | '<' :: r => (readAttrs (s.length + 1) (r.dropWhile nameChar)).map fun p => (r.takeWhile nameChar, p)
  | _ => .none

end Flatland.Spec
