import Verif.Model.Context
/-
Vocabulary for C55.
-/
namespace Flatland.Spec
open Flatland

/-- the value of an option that is in effect -/
def inEffect (c : Ctx) (k : PStr) : Option HtmlVal := dictGet c.top k

/-- the value a list of settings gives to an option: the last one -/
def settingOf (settings : List (PStr × HtmlVal)) (k : PStr) : Option HtmlVal := dictGet (dictOf settings) k

/-- During a history the scope that was current at its start is never left, and at the end it is current again. -/
def StaysInside [Casing] [Runtime] (c : Ctx) (ops : List GenOp) : Prop :=
  (∀ n, c.depth ≤ (runGen c (ops.take n)).depth) ∧ (runGen c ops).depth = c.depth

/-- a context some generator can be in: made with some settings, and any history after that -/
def ReachableGen [Casing] [Runtime] (c : Ctx) : Prop := ∃ settings ops, (Ctx.generator settings).2 = .none ∧ c = runGen (Ctx.generator settings).1 ops

/-- what the options of a new generator are if nothing else is asked for -/
def documentedDefaults : List (PStr × HtmlVal) :=
  [("auto_name".toList, .bool true), ("auto_value".toList, .bool true), ("auto_domid".toList, .bool false), ("auto_for".toList, .bool false),
   ("auto_tabindex".toList, .bool false), ("auto_filter".toList, .bool false), ("domid_format".toList, .text "f_%s".toList), ("tabindex".toList, .int 0),
   ("ordered_attributes".toList, .bool true)]

end Flatland.Spec
