import Mathlib.Analysis.SpecialFunctions.Log.Basic
import Mathlib.Algebra.BigOperators.Group.List.Basic

/-!
# The temperatures of the usage example

Model of the readings in `doc/ade-thermistor-usage.py`: the low-pass filter `IIR`, the conversion of voltages to temperatures
with the parameters found by the thermistor example, and the averages of `getTemps`.

Simplification: real numbers; there are two channels, written as a pair.
-/

set_option autoImplicit false

namespace Ade
namespace Thermometer

/-- `self.y = np.array(x) + self.a*self.y` (doc/ade-thermistor-usage.py:76). -/
def update (a : ℝ) (x y : ℝ × ℝ) : ℝ × ℝ := (x.1 + a * y.1, x.2 + a * y.2)

/-- The value of `y` used by a call: for the first call, zero settled to the input by `settle` calls
(doc/ade-thermistor-usage.py:72-75). -/
def settled (settle : ℕ) (a : ℝ) (x : ℝ × ℝ) : Option (ℝ × ℝ) → ℝ × ℝ
  | some y => y
  | none => (update a x)^[settle] (0, 0)

/-- `IIR.__call__` (doc/ade-thermistor-usage.py:71-77): the new `y` and the value returned. -/
def filter (settle : ℕ) (a : ℝ) (y : Option (ℝ × ℝ)) (x : ℝ × ℝ) : (ℝ × ℝ) × (ℝ × ℝ) :=
  let y' := update a x (settled settle a x y)
  (y', ((1 - a) * y'.1, (1 - a) * y'.2))

/-- `IIR.N_settle` (doc/ade-thermistor-usage.py:60). -/
def nSettle : ℕ := 10000

/-- `self.a` for the interval `ts` and the time constant `tc` (doc/ade-thermistor-usage.py:68). -/
noncomputable def coefficient (ts tc : ℝ) : ℝ := Real.exp (-ts / tc)

/-- The parameters of the curves (doc/ade-thermistor-usage.py:87-90). -/
structure Params where
  a0 : ℝ × ℝ
  a1 : ℝ × ℝ
  Rs : ℝ × ℝ
  Vp : ℝ

/-- The temperature for one voltage. -/
noncomputable def curve (a0 a1 Rs Vp V : ℝ) : ℝ := a1 * Real.log (Rs * V / (a0 * (Vp - V)))

/-- `v2t(V)` (doc/ade-thermistor-usage.py:123-144). -/
noncomputable def v2t (p : Params) (V : ℝ × ℝ) : ℝ × ℝ :=
  (curve p.a0.1 p.a1.1 p.Rs.1 p.Vp V.1, curve p.a0.2 p.a1.2 p.Rs.2 p.Vp V.2)

/-- `self.iir.y` and `self.readings`. -/
structure St where
  y : Option (ℝ × ℝ)
  readings : List (ℝ × ℝ)

/-- The sum of the readings divided by their number (doc/ade-thermistor-usage.py:167-170). -/
noncomputable def average (readings : List (ℝ × ℝ)) : ℝ × ℝ :=
  let T := readings.foldl (fun T r => (T.1 + r.1, T.2 + r.2)) (0, 0)
  (T.1 / readings.length, T.2 / readings.length)

/-- What is constant during the run: `N_settle`, the coefficient, the parameters, and `N_READINGS`. -/
structure Setup where
  settle : ℕ
  a : ℝ
  params : Params
  n : ℝ

open Classical in
/-- `getTemps()` (doc/ade-thermistor-usage.py:146-172) for the values of the two sensors, `none` being `None`. -/
noncomputable def getTemps (c : Setup) (s : St) (v : Option ℝ × Option ℝ) : St × Option (ℝ × ℝ) :=
  match v with
  | (some v1, some v2) =>
    let r := filter c.settle c.a s.y (v1, v2)
    let readings := s.readings ++ [v2t c.params r.2]
    if (readings.length : ℝ) < c.n then (⟨some r.1, readings⟩, none)
    else (⟨some r.1, []⟩, some (average readings))
  | _ => (s, none)

/-- The temperatures returned by successive calls that return any. -/
noncomputable def temps (c : Setup) : St → List (Option ℝ × Option ℝ) → List (ℝ × ℝ)
  | _, [] => []
  | s, v :: vs => (getTemps c s v).2.toList ++ temps c (getTemps c s v).1 vs

end Thermometer
end Ade
