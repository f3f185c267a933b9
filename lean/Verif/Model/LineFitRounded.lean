import Verif.Model.Single

/-!
# Weights of the line fit in single precision

The weights in `Analysis.lineFit` (ade/history.py:252-254) with the arithmetic of float32 arrays, including overflow and gradual
underflow; `Figures.weight` has them in exact arithmetic.

External contract: NumPy multiplies, adds and divides float32 arrays and float32 numbers in float32, and a Python integer does not
change the type.

Simplification: the scores are finite and not negative.  `numpy.polyfit` itself is not modelled.
-/

set_option autoImplicit false

namespace Ade
namespace LineFitRounded

open Single (toSingle)

/-- Division of numbers that are not negative in float32 (`/` in ade/history.py:254). -/
def divide : PyFloat → PyFloat → PyFloat
  | .fin a, .fin b => if b = 0 then (if a = 0 then .nan else .pinf) else toSingle (.fin (a / b))
  | .fin _, .pinf => .fin 0
  | .pinf, .fin _ => .pinf
  | _, _ => .nan

/-- The weight of a record with score `s` where the lowest score is `best` (ade/history.py:254). -/
def weight (best s : ℚ) : PyFloat := divide (toSingle (.fin (2 * best))) (toSingle (.fin (s + best)))

/-- The weights of records with the given scores; `none` is the `ValueError` of `min` for no records (ade/history.py:252-254). -/
def weights : List ℚ → Option (List PyFloat)
  | [] => none
  | s :: l => some ((s :: l).map (weight (l.foldl min s)))

end LineFitRounded
end Ade
