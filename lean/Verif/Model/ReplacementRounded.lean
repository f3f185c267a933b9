import Mathlib.Data.Rat.Defs
import Mathlib.Algebra.Order.Field.Rat

/-!
# The status quo decision in floating-point arithmetic

`Population.replacement` and `_keepStatusQuo` (ade/population.py:876-994) once more, with rounded arithmetic;
`Verif/Model/Replacement.lean` has them over the reals.

* The rounding of the arithmetic, `np.pi` and `np.sin` are parameters.
* Simplifications: no overflow and no underflow.
-/

set_option autoImplicit false

namespace Ade
namespace ReplacementRounded

/-- Floating-point arithmetic. -/
structure Arith where
  fl : ℚ → ℚ
  pi : ℚ
  sin : ℚ → ℚ

/-- What a replacement adds to the score (ade/population.py:993). -/
def addition (A : Arith) (rir : ℕ) : ℚ := if rir = 0 then A.fl (1 / 10) else A.fl (rir - 1 / 2)

/-- The score of a generation with the given improvement ratios (ade/population.py:981, 994). -/
def score (A : Arith) (rirs : List ℕ) : ℚ := rirs.foldl (fun x r => A.fl (x + addition A r)) 0

/-- `_keepStatusQuo` (ade/population.py:876-886), with `u` the value of `random_sample()`. -/
def keepStatusQuo (A : Arith) (score sqs u : ℚ) : Bool :=
  let x := A.fl (score / sqs)
  if x > 1 then true
  else
    let prob := A.fl (1 / 2 + A.fl (1 / 2 * A.sin (A.fl (A.pi * A.fl (x - 1 / 2)))))
    decide (u < prob)

/-- The inquiry at the end of a generation (ade/population.py:978-986). -/
def inquiry (A : Arith) (rirs : List ℕ) (sqs u : ℚ) : Bool := keepStatusQuo A (score A rirs) sqs u

end ReplacementRounded
end Ade
