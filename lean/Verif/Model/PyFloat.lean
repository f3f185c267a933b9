import Mathlib.Algebra.Order.Field.Rat
import Mathlib.Order.WithBot

/-!
# Python floats

Model of the Python `float` values that /repo/ade computes with (e.g. the "SSE" scores of
`individual.py`).  The special values and the IEEE comparison rules are kept; finite values are exact
rationals.

Simplifications: no rounding, no overflow of arithmetic, and `-0.0` is identified with `0.0`
(the latter matters only for hashing, where `Verif/Model/IdentityKey.lean` uses raw bytes instead).
-/

set_option autoImplicit false

namespace Ade

/-- A Python `float`. -/
inductive PyFloat where
  | nan
  | ninf
  | fin (q : ℚ)
  | pinf
  deriving DecidableEq, Repr

namespace PyFloat

/-- Python `x < y` on floats: false whenever a NaN is involved
(used e.g. in ade/individual.py:120, 216, 222). -/
def lt : PyFloat → PyFloat → Bool
  | nan, _ => false
  | _, nan => false
  | ninf, ninf => false
  | ninf, _ => true
  | fin _, ninf => false
  | fin a, fin b => decide (a < b)
  | fin _, pinf => true
  | pinf, _ => false

/-- Python `x == y` on floats: NaN differs from everything (used in ade/individual.py:198). -/
def eq : PyFloat → PyFloat → Bool
  | nan, _ => false
  | _, nan => false
  | ninf, ninf => true
  | pinf, pinf => true
  | fin a, fin b => decide (a = b)
  | _, _ => false

/-- Python `x <= y` on floats. -/
def le (x y : PyFloat) : Bool := lt x y || eq x y

/-- `np.isnan(x)` (ade/individual.py:186). -/
def isNaN : PyFloat → Bool
  | nan => true
  | _ => false

/-- `np.isinf(x)`: either infinity (ade/population.py:812). -/
def isInf : PyFloat → Bool
  | ninf => true
  | pinf => true
  | _ => false

/-- `np.isfinite(x)` (ade/history.py:616, 1045). -/
def isFinite : PyFloat → Bool
  | fin _ => true
  | _ => false

/-- The float `0` (or the int `0`) used in comparisons. -/
def zero : PyFloat := fin 0

/-- The extended rational a float denotes, `none` for NaN.  Only used to state specifications. -/
def toExt : PyFloat → Option (WithBot (WithTop ℚ))
  | nan => none
  | ninf => some ⊥
  | fin q => some ((q : WithTop ℚ) : WithBot (WithTop ℚ))
  | pinf => some ((⊤ : WithTop ℚ) : WithBot (WithTop ℚ))

end PyFloat
end Ade
