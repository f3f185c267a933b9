import Verif.Model.Figures

/-!
# Marker groups of an X-Y plot with rounding

`Analysis.Kf12` (ade/history.py:143-156) with every operation rounded; `Figures.fraction` has it in exact arithmetic.

Which precision an operation has depends on the version of NumPy (a float32 number times a Python float is a float64 number before
version 2, and a float32 number from then on; a float64 number that a float32 array is compared with may be converted).  So each
operation has a rounding of its own, which includes conversions of its result.  Simplification: no overflow.
-/

set_option autoImplicit false

namespace Ade
namespace FigureRounded

/-- The roundings of the fraction, the difference, the product and the sum in `fSSE` (ade/history.py:149-151). -/
structure Ops where
  conv : ℚ → ℚ
  sub : ℚ → ℚ
  mul : ℚ → ℚ
  add : ℚ → ℚ

/-- `fSSE` (ade/history.py:149-151), for a lowest score `lo` and a highest score `hi`. -/
def threshold (o : Ops) (lo hi f : ℚ) : ℚ := o.add (lo + o.mul (o.conv f * o.sub (hi - lo)))

/-- `Kf12` (ade/history.py:143-156), of an object with at least one record; the scores are sorted, so the last is the highest. -/
def fraction (o : Ops) (sse : ℕ → ℚ) (K : List ℕ) (f1 f2 : ℚ) : List ℕ :=
  let lo := sse (K.headD 0)
  let hi := sse (K.getLastD 0)
  K.filter fun k => decide (threshold o lo hi f1 ≤ sse k) && decide (sse k < threshold o lo hi f2)

/-- The marker sizes of a plot with `useFraction` set, each with the records drawn with it (ade/history.py:471-482). -/
def drawn (o : Ops) (sse : ℕ → ℚ) (K : List ℕ) : List (ℚ × List ℕ) := Figures.marked (fraction o sse K) 0 Figures.fmms

end FigureRounded
end Ade
