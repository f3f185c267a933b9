import Verif.Model.Analysis
import Verif.Model.Single

/-!
# Queries of the history in single precision

The selection of records by the ratio of their scores to the best score in `Analysis.value_vs_SSE` of `ade/history.py`, with the
arithmetic of float32 arrays; `Verif/Model/Analysis.lean` has it in exact arithmetic.

External contract: NumPy divides a float32 array by a float32 number in float32, and converts a Python number that a float32 array is
compared with to float32.

Simplification: the scores are finite and not negative.
-/

set_option autoImplicit false

namespace Ade
namespace QueryRounded

open Analysis (Mode selectRows)
open Single (toSingle)

/-- `x/SSE_best <= maxRatio` (ade/history.py:235): `0/0` is NaN and `x/0` infinite, so that with a best score of zero the
comparison is false. -/
def withinRatio (best x maxRatio : ℚ) : Bool :=
  if best = 0 then false else (toSingle (.fin (x / best))).le (toSingle (.fin maxRatio))

/-- The rows used by `value_vs_SSE` (ade/history.py:225-236) with scores `sse`; `none` is the `IndexError` for an empty
history. -/
def queryRows (sse : Nat → ℚ) (K : List Nat) (Kp Kn : Finset Nat) (m : Mode) (maxRatio : ℚ) : Option (List Nat) :=
  match K with
  | [] => none
  | k0 :: ks => some ((selectRows (k0 :: ks) Kp Kn m).filter fun k => withinRatio (sse k0) (sse k) maxRatio)

end QueryRounded
end Ade
