import Verif.Model.Figures

/-!
# Marker groups by rank with rounding

`Analysis.Kp12` (ade/history.py:158-169) with the arithmetic of Python floats; `Analysis.portion` has it in exact arithmetic.  The
numbers in `fmms` (ade/history.py:92-99) are floats, and so is their product with the number of records.  Simplification: this number
itself is exact as a float, as it is below `2^53`.
-/

set_option autoImplicit false

namespace Ade
namespace RankRounded

/-- `int(np.floor(p*N))` (ade/history.py:168-169), for a `p` that is not negative, written as the decimal number `p`. -/
def place (fl : ℚ → ℚ) (N : ℕ) (p : ℚ) : ℕ := (fl (fl p * N)).floor.toNat

/-- `Kp12` (ade/history.py:158-169). -/
def portion (fl : ℚ → ℚ) (K : List ℕ) (p1 p2 : ℚ) : List ℕ := (K.take (place fl K.length p2 + 1)).drop (place fl K.length p1)

/-- The marker sizes of a plot without `useFraction`, each with the records drawn with it (ade/history.py:471-482). -/
def drawn (fl : ℚ → ℚ) (K : List ℕ) : List (ℚ × List ℕ) := Figures.marked (portion fl K) 0 Figures.fmms

end RankRounded
end Ade
