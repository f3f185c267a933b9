import Mathlib.Algebra.Order.Field.Rat

/-!
# Dimensions of figures

Model of `ade/history.py` `_widthHeight`, `filePath` (its dimensions; the file names are in
`Verif/Model/Analysis.lean`) and `makePlotter`.

Simplifications: Python's `float(x)` on text is an argument (`none` is a `ValueError`), as are `Plotter.DPI`
and the numbers of columns and rows that `Plotter.parseArgs` gives; what the `Plotter` of the `yampex`
package does with a width and height is not modelled.
-/

set_option autoImplicit false

namespace Ade
namespace Dims

/-- Text. -/
abbrev Str := List Char

/-- What is fixed: `float` on text, `Plotter.DPI`, and the class attribute `defaultWidth`
(ade/history.py:101). -/
structure Env where
  float : Str → Option ℚ
  dpi : ℚ
  defaultWidth : ℚ

/-- `dims.split('x')` (ade/history.py:286). -/
def splitX : Str → List Str
  | [] => [[]]
  | c :: cs =>
    if c = 'x' then [] :: splitX cs
    else match splitX cs with
      | p :: ps => (c :: p) :: ps
      | [] => [[c]]

/-- `inches` (ade/history.py:280-281). -/
def inches (e : Env) (x : Str) : Option ℚ := (e.float x).map (· / e.dpi)

/-- `_widthHeight` (ade/history.py:274-289): width and height in inches, the height being `None` (inner
`none`) if not given; outer `none` is a `ValueError`. -/
def widthHeight (e : Env) (dims : Str) : Option (ℚ × Option ℚ) :=
  if dims = [] then some (e.defaultWidth, none)
  else if 'x' ∈ dims then
    match splitX dims with
    | [w, h] => (inches e w).bind fun w => (inches e h).map fun h => (w, some h)
    | _ => none
  else (inches e dims).map fun w => (w, none)

/-- An analysis object: the width and height in its `fileSpec`, if it is to write files. -/
structure An where
  fileSpec : Option (ℚ × Option ℚ)

/-- `filePath(baseFilePath, dims)` (ade/history.py:314, 325-327). -/
def setFile (e : Env) (dims : Str) : Option An := (widthHeight e dims).map fun p => ⟨some p⟩

/-- The keywords of `makePlotter`: `width`, `height` and `dims` (ade/history.py:344-346). -/
structure Keys where
  width : Option ℚ := none
  height : Option ℚ := none
  dims : Str := []

/-- `if width: kw['width'] = width` (ade/history.py:355-356): zero is not passed on. -/
def pass (x : Option ℚ) : Option ℚ := if x = some 0 then none else x

/-- `makePlotter` (ade/history.py:329-359): the width and height that the plotter is made with, `none` for its
own default.  `Nc` and `Nr` are columns and rows; outer `none` is a `ValueError`. -/
def makePlotter (e : Env) (a : An) (k : Keys) (Nc Nr : ℕ) : Option (Option ℚ × Option ℚ) :=
  match a.fileSpec with
  | some (w, h) =>
    let h := match h with
      | some h => h
      | none => w * min (7 / 10) ((Nr : ℚ) / (Nc : ℚ))
    some (pass (some w), pass (some h))
  | none =>
    if k.dims = [] then some (pass k.width, pass k.height)
    else (widthHeight e k.dims).map fun p => (pass (some p.1), pass p.2)

/-- The figures of `pv` (ade/scripts/pv.py:98, 102-114): with `-f` the dimensions of `-d` go into the
`fileSpec`, and they are given as keyword in any case. -/
def pv (e : Env) (file : Bool) (d : Str) (Nc Nr : ℕ) : Option (Option ℚ × Option ℚ) :=
  (if file then setFile e d else some ⟨none⟩).bind fun a => makePlotter e a { dims := d } Nc Nr

end Dims
end Ade
