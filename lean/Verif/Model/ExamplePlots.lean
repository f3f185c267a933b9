import Verif.Model.Thermistor
import Verif.Model.Voc

/-!
# The plots of the examples

Model of what the `Reporter` objects of `ade/examples/thermistor.py` and `ade/examples/voc.py` draw when they are told of a new
best combination of values.

Simplifications: real numbers instead of floating point numbers.  Of a plot there is what is drawn: the points of the readings,
those of the red curve, the level of the zero line.  Titles, labels, annotations, colours and the printed line of values (C57)
are left out; so is what yampex and matplotlib make of it.
-/

set_option autoImplicit false

namespace Ade
namespace ExamplePlots

/-- `np.linspace(a, b, n)`. -/
noncomputable def linspace (a b : ℝ) (n : ℕ) : List ℝ :=
  (List.range n).map fun (i : ℕ) => a + i * ((b - a) / (n - 1))

/-- `x.min()`, which raises ValueError for an empty array. -/
noncomputable def least : List ℝ → Option ℝ
  | [] => none
  | x :: xs => some (xs.foldl min x)

/-- `x.max()`, which raises ValueError for an empty array. -/
noncomputable def greatest : List ℝ → Option ℝ
  | [] => none
  | x :: xs => some (xs.foldl max x)

/-- One subplot: the points of the readings, those of the curve (without a second coordinate: NaN), the zero line. -/
structure Subplot where
  points : List (ℝ × ℝ)
  line : List (ℝ × Option ℝ)
  zero : Option ℝ

/-- `curve` of the thermistor example with `np.log` being NaN (or minus infinity, which gives absolute zero, for 0; left out)
where its argument is not positive (ade/examples/thermistor.py:237-254). -/
noncomputable def curveAt (R : ℝ) (args : List ℝ) : Option ℝ :=
  open Classical in if 0 < R then some (Thermistor.curve R args) else none

/-- One round of the loop of `Reporter.__call__` in the thermistor example (ade/examples/thermistor.py:147-157); a row is the
weight, the temperature and the resistance. -/
noncomputable def thermistorSubplot (rows : List (ℝ × ℝ × ℝ)) (values : List ℝ) (k : ℕ) : Option Subplot :=
  let R := rows.map fun r => r.2.2
  let T := rows.map fun r => r.2.1
  match least R, greatest R with
  | some lo, some hi =>
    let R' := linspace (lo - 10) (hi + 10) 200
    some ⟨R.zip T, R'.map fun x => (x, curveAt x (Thermistor.values2args values k)), none⟩
  | _, _ => none

/-- `Reporter.__call__` of the thermistor example (ade/examples/thermistor.py:135-159): the subplots of the image that is
written, nothing if there is an exception. -/
noncomputable def thermistorPlot (data : ℕ → List (ℝ × ℝ × ℝ)) (values : List ℝ) : Option (List Subplot) :=
  ((List.range' 1 6).map fun k => thermistorSubplot (data k) values k).mapM id

/-- `Reporter.__call__` of the battery example (ade/examples/voc.py:107-144): the two subplots; nothing if there is an
exception, as from `np.argmax` (line 141) when there is no third reading.  A row is the time and the voltage. -/
noncomputable def vocPlot (rows : List (ℝ × ℝ)) (values : List ℝ) : Option (Subplot × Subplot) :=
  let t := rows.map Prod.fst
  match least t, greatest t with
  | some lo, some hi =>
    let tm := linspace lo (3 * hi) 200
    let res := rows.map fun r => Voc.curve r.1 values - r.2
    if (res.drop 2).isEmpty then none
    else
      some (⟨rows, tm.map fun x => (x, some (Voc.curve x values)), some (values.getLastD 0)⟩, ⟨t.zip res, [], some 0⟩)
  | _, _ => none

end ExamplePlots
end Ade
