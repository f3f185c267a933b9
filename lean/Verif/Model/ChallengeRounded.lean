import Verif.Model.Challenge
import Verif.Model.Rounding

/-!
# The values of a challenger in floating-point arithmetic

Mutation, crossover and limiting of a challenge (`ade/de.py`, `ade/individual.py`, `ade/population.py`) with rounded arithmetic;
`Verif/Model/Challenge.lean` has them in exact arithmetic.

* `fl` is the rounding of the arithmetic, a parameter; the theorems ask for roundings to nearest with 53 bits.
* Simplifications: no overflow and no underflow (as in `Verif/Model/Rounding.lean`); random draws are arguments.
-/

set_option autoImplicit false

namespace Ade
namespace ChallengeRounded

/-- `iBase + (i0 - i1) * self.fm.get()` (ade/de.py:532; ade/individual.py:224-241), on the values. -/
def donor (fl : ℚ → ℚ) (b i0 i1 : List ℚ) (F : ℚ) : List ℚ :=
  let diff := List.zipWith (fun x y => fl (x - y)) i0 i1
  let scaled := diff.map fun x => fl (x * F)
  List.zipWith (fun x y => fl (x + y)) b scaled

/-- The bounds of a parameter with `2*self.mins - values` and `2*self.maxs - values` (ade/population.py:250-251). -/
def bound (fl : ℚ → ℚ) (lo hi : ℚ) : Rounding.Bound ℚ := ⟨lo, hi, fun v => fl (fl (2 * lo) - v), fun v => fl (fl (2 * hi) - v)⟩

/-- The challenger's values after mutation, crossover and limiting (ade/de.py:532-535). -/
def challenger (fl : ℚ → ℚ) (bounds : List (ℚ × ℚ)) (CR : ℚ) (d : Challenge.Draws) (t b i0 i1 : List ℚ) : List ℚ :=
  Rounding.limit (bounds.map fun p => bound fl p.1 p.2)
    (Challenge.crossover CR bounds.length d t (donor fl b i0 i1 d.F))

end ChallengeRounded
end Ade
