import Mathlib.Data.Int.Log
import Verif.Model.Rounding
import Verif.Model.Reporter

/-!
# The ratio of a report in floating-point arithmetic

`Model/Reporter.lean` takes the quotient of two scores as an exact rational number.  Here the same two functions of the
`Reporter`, `isEquivSSE` and the numeric part of `msgRatio`, are modelled with rounded division and subtraction.

* `fl` is the rounding of the arithmetic, a parameter; the theorems ask for any rounding to nearest with 53 bits, such as
  `round53`.
* Simplifications: no overflow and no underflow (as in `Model/Rounding.lean`); both scores are usable, finite and not negative
  (the other cases involve no arithmetic and are in `Model/Reporter.lean`).
-/

set_option autoImplicit false

namespace Ade
namespace RatioRounded

open Reporter (roundHalfEven)

/-- Rounding of a positive number to 53 bits, halves to even: the arithmetic of Python floats, which `isEquivSSE` and `msgRatio`
convert the scores to (ade/report.py:114, 346-347). -/
def roundPos (x : ℚ) : ℚ :=
  let e := Int.log 2 x - 52
  roundHalfEven (x / (2 : ℚ) ^ e) * (2 : ℚ) ^ e

/-- Rounding to 53 bits, halves to even (ade/report.py:114-115, 346-347). -/
def round53 (x : ℚ) : ℚ := if 0 < x then roundPos x else if x < 0 then -roundPos (-x) else 0

/-- `isEquivSSE` on finite scores (ade/report.py:101-115), with the attribute `minDiff` (ade/report.py:60). -/
def equivFl (fl : ℚ → ℚ) (minDiff better worse : ℚ) : Bool :=
  if worse = 0 then false else decide (|fl (fl (better / worse) - 1)| < minDiff)

/-- The ratio that `msgRatio` returns for finite scores `a` of `iNum` and `b` of `iDenom` (ade/report.py:335-350). -/
def ratioFl (fl : ℚ → ℚ) (minDiff a b : ℚ) : Option ℕ :=
  if a < b then none
  else if equivFl fl minDiff b a then some 0
  else if b = 0 then some 1000
  else some (roundHalfEven (fl (a / b)))

end RatioRounded
end Ade
