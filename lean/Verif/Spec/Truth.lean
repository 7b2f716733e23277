import Verif.Spec.ScalarTypes
/-! Which elements count as true (C91). -/
namespace Flatland.Spec
variable [Runtime]

/-- the class shows True as some text -/
def ShownWhenTrue : Builtin → Prop
  | .boolean c => c.true_ ≠ []
  | .enum c _ => ShownWhenTrue c
  | _ => True

end Flatland.Spec
