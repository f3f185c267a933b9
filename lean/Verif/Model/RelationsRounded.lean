import Verif.Model.Constraints

/-!
# Relations between parameters in floating-point arithmetic

`RelationsChecker.__call__` of `ade/constraints.py` with rounded arithmetic; `Verif/Model/Constraints.lean` has it in exact
arithmetic.

* `fl` is the rounding of the arithmetic, a parameter; the theorems ask for any rounding to nearest with 53 bits.
* Simplifications: no overflow and no underflow (as in `Verif/Model/Rounding.lean`), so no infinities and NaNs; the dict of
  dicts is the list of its entries, as in `Verif/Model/Constraints.lean`.
-/

set_option autoImplicit false

namespace Ade
namespace RelationsRounded

open ParamManager (Dict)
open Constraints (Relation)

/-- `m*x + b - y` as it is computed (ade/constraints.py:57-58). -/
def deviation (fl : ℚ → ℚ) (r : Relation) (x y : ℚ) : ℚ :=
  let yr := fl (fl (r.m * x) + r.b)
  fl (yr - y)

/-- `RelationsChecker.__call__` (ade/constraints.py:49-60); `none` is a `KeyError`. -/
def check (fl : ℚ → ℚ) (params : Dict) : List Relation → Option Bool
  | [] => some true
  | r :: rs =>
    match params r.x with
    | none => none
    | some x =>
      match params r.y with
      | none => none
      | some y => if |deviation fl r x y| > r.yMaxErr then some false else check fl params rs

end RelationsRounded
end Ade
