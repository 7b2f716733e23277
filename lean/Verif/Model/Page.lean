import Verif.Model.Markup
/-
Model of a template that outputs tags one after another through one generator: flatland/out/markup.py `Tag.__call__`.
-/
namespace Flatland

/-- a call such as `gen.input(element, class_='x')`: the kind of tag, its name, the bound element and the keywords [out/markup.py:205-255, 288] -/
structure PageCall where
  style : TagStyle
  tag : PStr
  bound : Option Bind
  kw : Attrs

/-- The tags of a template, rendered in one scope: the context afterwards and their texts; the first exception ends the rendering.
[out/markup.py:288-300, for each call] -/
def renderPage [Runtime] [Casing] : List PageCall → OptFrame → OptFrame × Except PyErr (List PStr)
  | [], f => (f, .ok [])
  | c :: r, f =>
    match tagCall [] c.style c.tag c.bound c.kw f with
    | (f', .error e) => (f', .error e)
    | (f', .ok out) => ((renderPage r f').1, (renderPage r f').2.map (out :: ·))

end Flatland
