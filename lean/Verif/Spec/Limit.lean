import Mathlib.Algebra.Order.Field.Rat
import Mathlib.Order.Lattice

/-!
# Specification: limiting a value to an interval by reflection
-/

set_option autoImplicit false

namespace Ade

/-- `LimitedTo lo hi v w`: the value `v` becomes `w`.  Inside, it stays; outside, it is mirrored at the
bound it crosses, a value from below also at the upper bound if the first mirror image lies above it;
what then is still below goes to the lower bound. -/
inductive LimitedTo (lo hi v : ℚ) : ℚ → Prop where
  | inside : lo ≤ v → v ≤ hi → LimitedTo lo hi v v
  | above : lo ≤ v → hi < v → LimitedTo lo hi v (max lo (2 * hi - v))
  | below : v < lo → 2 * lo - v ≤ hi → LimitedTo lo hi v (2 * lo - v)
  | farBelow : v < lo → hi < 2 * lo - v → LimitedTo lo hi v (max lo (2 * hi - (2 * lo - v)))

end Ade
