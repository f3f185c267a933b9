import Mathlib.Algebra.Order.Field.Basic
import Mathlib.Algebra.BigOperators.Group.List.Basic
import Mathlib.Analysis.SpecialFunctions.Log.Basic

/-!
# The thermistor example

Model of the evaluation in `ade/examples/thermistor.py`: names of the parameters, arguments of the curve, the curve, the
weights of the readings, the penalty and the loop that may stop early.

Simplifications: numbers are those of a linearly ordered field (real numbers for the curve and the logarithms), so that
there is no rounding, no NaN and no infinity; `np.log` is only used where its argument is positive (otherwise the
model's value means nothing).  Reading the data from the CSV file is `Verif/Model/TimeData.lean`.
-/

set_option autoImplicit false

namespace Ade
namespace Thermistor

/-- `prefixes` (ade/examples/thermistor.py:174). -/
def prefixes : List Char := ['A', 'B', 'C', 'D']

/-- `sorted(self.prefix_bounds.keys())` (ade/examples/thermistor.py:175-188, 204). -/
def sortedKeys : List Char := ['A', 'B', 'C', 'D', 'a', 'b', 'c', 'd']

/-- `prefix2name` (ade/examples/thermistor.py:219-224) for a thermistor number of one digit. -/
def prefix2name (p : Char) (k : ℕ) : List Char := [p, Nat.digitChar k]

/-- The names that one round of the loop over the thermistors adds (ade/examples/thermistor.py:206-214). -/
def namesFor (k : ℕ) : List (List Char) :=
  sortedKeys.filterMap fun p =>
    if k = 0 ∧ p ∈ prefixes then some [p]
    else if 0 < k ∧ p ∈ prefixes.map Char.toLower then some (prefix2name p k)
    else none

/-- The names of the parameters (ade/examples/thermistor.py:203-214). -/
def names : List (List Char) := (List.range 7).flatMap namesFor

/-- `prefix_bounds` (ade/examples/thermistor.py:175-188), the lower and the upper bound for a kind of coefficient. -/
def prefixBounds : Char → ℚ × ℚ
  | 'A' => (8 / 10 ^ 4, 14 / 10 ^ 4)
  | 'B' => (2 / 10 ^ 4, 3 / 10 ^ 4)
  | 'C' => (1 / 10 ^ 8, 2 / 10 ^ 8)
  | 'D' => (7 / 10 ^ 9, 2 / 10 ^ 8)
  | 'a' => (6 / 10, 14 / 10)
  | 'b' => (6 / 10, 14 / 10)
  | _ => (5 / 100, 20)

/-- The bounds of the parameters (ade/examples/thermistor.py:214). -/
def bounds : List (ℚ × ℚ) := names.map fun x => prefixBounds (x.headD ' ')

/-- `indices` (ade/examples/thermistor.py:213). -/
def index (name : List Char) : ℕ := names.idxOf name

/-- `values2args(values, k)` (ade/examples/thermistor.py:226-235). -/
def values2args {K : Type} [Inhabited K] (values : List K) (k : ℕ) : List K :=
  ((prefixes.map fun p => [p]) ++ prefixes.map fun p => prefix2name p.toLower k).map fun x => values.getD (index x) default

/-- `curve(R, *args)` for one resistance (ade/examples/thermistor.py:237-254). -/
noncomputable def curve (R : ℝ) (args : List ℝ) : ℝ :=
  let lnR := Real.log R
  let p := fun k => args.getD k 0 * args.getD (k + 4) 0
  1 / (p 0 + p 1 * lnR + p 2 * lnR ^ 2 + p 3 * lnR ^ 3) - 273.15

section
variable {K : Type} [Field K] [LinearOrder K]

/-- The filtered temperatures `signal.lfilter([1, 1], [2], X[:,0])` (ade/examples/thermistor.py:93); `prev` is the input
before the first one, at first 0. -/
def filtered (prev : K) : List K → List K
  | [] => []
  | x :: xs => (x + prev) / 2 :: filtered x xs

/-- `np.diff`. -/
def diff : List K → List K
  | a :: b :: l => (b - a) :: diff (b :: l)
  | _ => []

/-- `np.where(X[:,0] < 4.0, 10*w, w)` and `np.where(X[:,0] < -5.0, 3*w, w)` for one reading
(ade/examples/thermistor.py:100-104). -/
def coldFactor (T w : K) : K :=
  let w := if T < 4 then 10 * w else w
  if T < -5 then 3 * w else w

/-- `setWeights` (ade/examples/thermistor.py:87-104): `t` are the times, `T` the temperatures. -/
def weights (t T : List K) : List K :=
  let h : K := 5 / 100 / 10
  let dTdt := List.zipWith (· / ·) (diff (filtered 0 T)) (diff t)
  let w := dTdt.map fun d => (h / (|d| + h)) ^ 3
  List.zipWith coldFactor T (0 :: w)

/-- The loop over the thermistors (ade/examples/thermistor.py:264-273): `terms` are the sums of squared residuals; the
second component tells if it returned early.  `stop` is the test `xSSE and SSE > xSSE`. -/
def sumLoop (stop : K → Bool) : K → List K → K × Bool
  | acc, [] => (acc, false)
  | acc, x :: xs => if stop (acc + x) then (acc + x, true) else sumLoop stop (acc + x) xs

/-- The loop over the prefixes (ade/examples/thermistor.py:276-287); `drifts` are the sums of logarithms. -/
def penaltyLoop (stop : K → Bool) : K → List K → K
  | acc, [] => acc
  | acc, d :: ds =>
    let acc := acc * (1 + 1 / 10 * d ^ 4)
    if stop acc then acc else penaltyLoop stop acc ds

/-- The test `xSSE and SSE > xSSE` (ade/examples/thermistor.py:272, 284). -/
def stopTest (xSSE : Option K) (SSE : K) : Bool :=
  match xSSE with
  | none => false
  | some x => decide (x ≠ 0) && decide (x < SSE)

/-- `__call__(values, xSSE)` (ade/examples/thermistor.py:256-287), given the sums of squared residuals of the six
thermistors and the drifts of the four kinds of coefficients. -/
def evaluate (terms drifts : List K) (xSSE : Option K) : K :=
  let r := sumLoop (stopTest xSSE) 0 terms
  if r.2 then r.1 else penaltyLoop (stopTest xSSE) r.1 drifts

end

/-- The sum of weighted squared residuals of thermistor `k` (ade/examples/thermistor.py:267-271); a row is the weight,
the temperature and the resistance. -/
noncomputable def residuals (rows : List (ℝ × ℝ × ℝ)) (args : List ℝ) : ℝ :=
  (rows.map fun r => r.1 * (curve r.2.2 args - r.2.1) ^ 2).sum

/-- The scaling factors of one kind of coefficient (ade/examples/thermistor.py:278-280). -/
def ratios {K : Type} [Inhabited K] (values : List K) (p : Char) : List K :=
  (names.filter fun x => x.head? == some p.toLower).map fun x => values.getD (index x) default

/-- The drift (ade/examples/thermistor.py:281). -/
noncomputable def drift (values : List ℝ) (p : Char) : ℝ := ((ratios values p).map Real.log).sum

/-- The whole evaluation of the example: `data k` are the rows for thermistor `k`. -/
noncomputable def score (data : ℕ → List (ℝ × ℝ × ℝ)) (values : List ℝ) (xSSE : Option ℝ) : ℝ :=
  evaluate ((List.range 6).map fun k => residuals (data (k + 1)) (values2args values (k + 1)))
    (prefixes.map (drift values)) xSSE

end Thermistor
end Ade
