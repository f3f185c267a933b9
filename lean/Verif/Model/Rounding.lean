import Mathlib.Data.Rat.Defs
import Mathlib.Algebra.Order.Field.Rat
import Mathlib.Data.List.Basic
import Mathlib.Order.MinMax
import Mathlib.Algebra.Field.Basic
import Mathlib.Algebra.Order.Field.Basic

/-!
# Bounds in floating-point arithmetic

The other models take finite floats as exact rational numbers.  Here the two functions that keep parameters within their
bounds, `ParameterManager.limit` and `ParameterManager.fromUnity`, are modelled with rounded arithmetic.

* `Repr p x`: `x` is a float with `p` bits (53 for numpy's float64).  Simplification: no overflow and no underflow (the
  exponent is unbounded).
* `Nearest p x y`: `y` is a result of rounding `x` to nearest, with any rule for ties.
-/

set_option autoImplicit false

namespace Ade
namespace Rounding

/-- Numbers with `p` significant bits. -/
def Repr (p : ℕ) (x : ℚ) : Prop := ∃ (m : ℤ) (e : ℤ), |m| < 2 ^ p ∧ x = m * (2 : ℚ) ^ e

/-- Rounding to nearest: `y` is a float, and none is nearer to `x`. -/
def Nearest (p : ℕ) (x y : ℚ) : Prop := Repr p y ∧ ∀ z, Repr p z → |x - y| ≤ |x - z|

/-- One element of `fromUnity` (ade/population.py:172-182) in floats: `v` is a possible result for the normalized value `u`.
The scale is computed in the constructor (ade/population.py:95). -/
def FromUnity (p : ℕ) (lo hi u v : ℚ) : Prop :=
  ∃ s w, Nearest p (hi - lo) s ∧ Nearest p (s * u) w ∧ Nearest p (lo + w) v

/-- One element of `limit` (ade/population.py:250-252), where `rlo v` and `rhi v` are whatever `2*lo - v` and `2*hi - v` are
computed to. -/
def limit1 {α : Type} [LinearOrder α] (rlo rhi : α → α) (lo hi v : α) : α :=
  let v := if v < lo then rlo v else v
  let v := if v > hi then rhi v else v
  min (max v lo) hi

/-- Bounds of one parameter with its rounded reflections. -/
structure Bound (α : Type) where
  lo : α
  hi : α
  rlo : α → α
  rhi : α → α

/-- `limit` (ade/population.py:236-252). -/
def limit {α : Type} [LinearOrder α] (bs : List (Bound α)) (vs : List α) : List α :=
  List.zipWith (fun b v => limit1 b.rlo b.rhi b.lo b.hi v) bs vs

end Rounding
end Ade
