import Verif.Model.Rounding

/-!
# Scaling to the unit cube in floating-point arithmetic

`toUnity`, `fromUnity` and the stars of `stringValue` of `ParameterManager` (`ade/population.py`), one parameter at a time, with
rounded arithmetic; `Verif/Model/ParamManager.lean` and `Verif/Model/LogText.lean` have them in exact arithmetic.

* `fl` is the rounding of the arithmetic, a parameter; the theorems ask for any rounding to nearest with 53 bits.
* Simplifications: no overflow and no underflow (as in `Verif/Model/Rounding.lean`); the lower bound is below the upper one.
-/

set_option autoImplicit false

namespace Ade
namespace UnityRounded

/-- An element of `self.scales` (ade/population.py:95). -/
def scale (fl : ℚ → ℚ) (lo hi : ℚ) : ℚ := fl (hi - lo)

/-- `toUnity` (ade/population.py:184-192). -/
def toUnity (fl : ℚ → ℚ) (lo hi v : ℚ) : ℚ := fl (fl (v - lo) / scale fl lo hi)

/-- `fromUnity` (ade/population.py:172-182). -/
def fromUnity (fl : ℚ → ℚ) (lo hi u : ℚ) : ℚ :=
  let scaled := fl (scale fl lo hi * u)
  fl (lo + scaled)

/-- The number of stars that `stringValue` adds (ade/population.py:117-124); the literals 0.05 and 0.95 are rounded as well. -/
def stars (fl : ℚ → ℚ) (lo hi v : ℚ) : ℕ :=
  let uValue := fl (fl (v - lo) / scale fl lo hi)
  if uValue < fl (5 / 100) then 1 else if uValue > fl (95 / 100) then 2 else 0

end UnityRounded
end Ade
