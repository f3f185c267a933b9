import Mathlib.Data.Rat.Floor
import Verif.Model.PairSampling

/-!
# The number of random pairs with rounding

The number of pairs that `ClosestPairFinder.pairs_sampled` (ade/history.py:637-656) draws in a round, with the arithmetic of Python
floats; `PairSampling.roundSize` has it in exact arithmetic.  Simplification: the numbers of rows and pairs themselves are exact as
floats, as they are below `2^53`.
-/

set_option autoImplicit false

namespace Ade
namespace PairRounded

/-- `mult = 2.1*Nr/(Nr-1)` (ade/history.py:649), every operation rounded by `fl`. -/
def mult (fl : ℚ → ℚ) (Nr : ℕ) : ℚ := fl (fl (fl (21/10) * Nr) / (Nr - 1))

/-- `Ns = int(mult*N)` (ade/history.py:650), for a product that is not negative. -/
def size (fl : ℚ → ℚ) (Nr N : ℕ) : ℕ := (fl (mult fl Nr * N)).floor.toNat

end PairRounded
end Ade
