import Mathlib.Analysis.SpecialFunctions.Exp
import Mathlib.Data.List.Sort

/-!
# The battery voltage example and the Goldstein-Price function

Model of the evaluation in `ade/examples/voc.py` and of the function in `ade/examples/goldstein-price.c`.

Simplifications: real numbers instead of floating point numbers.  A division by zero (`a2` has 0 for its lower bound)
does not mean anything in the model.
-/

set_option autoImplicit false

namespace Ade
namespace Voc

/-- The keys of `bounds` in the order of the source (ade/examples/voc.py:158-173) with the bounds. -/
def boundsOf : List (List Char × ℚ × ℚ) :=
  [(['a', '1'], 0, 40), (['b', '1'], 1, 600), (['c', '1'], 1, 200), (['a', '2'], 0, 600), (['b', '2'], 1200, 7200),
    (['c', '2'], 50, 1000), (['a', '3'], 0, 800), (['b', '3'], 3600, 43200), (['c', '3'], 100, 4000),
    (['v', 'o', 'c'], 45, 54)]

/-- Python's order of strings. -/
def leName : List Char → List Char → Bool
  | [], _ => true
  | _ :: _, [] => false
  | a :: l, b :: m => decide (a.val < b.val) || (a == b && leName l m)

/-- `names = sorted(self.bounds.keys())` (ade/examples/voc.py:189). -/
def names : List (List Char) := (boundsOf.map Prod.fst).insertionSort fun a b => leName a b = true

/-- `bounds` (ade/examples/voc.py:188-191). -/
def bounds : List (ℚ × ℚ) := names.map fun n => (boundsOf.lookup n).getD (0, 0)

/-- One round of the loop of `curve` (ade/examples/voc.py:209-210). -/
noncomputable def term (t : ℝ) (args : List ℝ) (k : ℕ) : ℝ :=
  let s := (args.drop (3 * k)).take 3
  s.getD 0 0 * Real.exp (-(t + s.getD 2 0) / s.getD 1 0)

/-- `curve(t, *args)` for one time (ade/examples/voc.py:196-211). -/
noncomputable def curve (t : ℝ) (args : List ℝ) : ℝ :=
  (List.range 3).foldl (fun V k => V + term t args k) (args.getLastD 0)

/-- `__call__(values)` (ade/examples/voc.py:213-219); a row is the time and the voltage. -/
noncomputable def score (rows : List (ℝ × ℝ)) (values : List ℝ) : ℝ :=
  100 * (rows.map fun r => (curve r.1 values - r.2) ^ 2).sum

end Voc

namespace GoldsteinPrice

/-- `gp` (ade/examples/goldstein-price.c:25-39), statement by statement. -/
def gp {K : Type} [Field K] (x y : K) : K :=
  let z := x + y + 1
  let z := z * z
  let z := z * (19 - 14 * x + 3 * x * x - 14 * y + 6 * x * y + 3 * y * y)
  let z := z + 1
  let result := z
  let z := 2 * x - 3 * y
  let z := z * z
  let z := z * (18 - 32 * x + 12 * x * x + 48 * y - 36 * x * y + 27 * y * y)
  let z := z + 30
  let result := result * z
  result

/-- `bounds` (ade/examples/goldstein-price.py:250). -/
def bounds : List (ℚ × ℚ) := [(-2, 2), (-2, 2)]

end GoldsteinPrice
end Ade
