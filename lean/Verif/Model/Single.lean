import Verif.Model.PyFloat
import Verif.Model.Reporter
import Mathlib.Data.Int.Log

/-!
# Storing a number in a float32 array

`History.X` is created with `dtype='f4'` (ade/history.py:841) and a row of it is assigned from Python floats
(ade/history.py:1030), so every score and value kept is converted to single precision.  The other history
modules take the conversion as a parameter; here it is the one of IEEE 754: a significand of 24 bits,
exponents down to -149 (gradual underflow), rounding to nearest with ties to even, and infinity for
what would round to `2^128` or more.

Simplifications: as everywhere, `-0.0` is identified with `0.0`.
-/

set_option autoImplicit false

namespace Ade
namespace Single

open Reporter (roundHalfEven)

/-- The exponent of the last place of a float32 near `a > 0` (24 bits of significand, gradual underflow
from `2^-126` on; ade/history.py:841). -/
def lastPlace (a : ℚ) : ℤ := max (Int.log 2 a - 23) (-149)

/-- The multiple of the last place nearest to `a > 0` (ade/history.py:1030). -/
def mag (a : ℚ) : ℚ := roundHalfEven (a / 2 ^ lastPlace a) * 2 ^ lastPlace a

/-- The float32 that `X[kr,:] = SV` stores for a Python float (ade/history.py:1030). -/
def toSingle : PyFloat → PyFloat
  | .fin q =>
    if 2 ^ 128 ≤ mag |q| then (if q < 0 then .ninf else .pinf)
    else .fin (if q < 0 then -mag |q| else mag |q|)
  | x => x

end Single
end Ade
