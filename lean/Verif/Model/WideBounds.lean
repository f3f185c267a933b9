import Verif.Model.PyFloat

/-!
# One parameter with wide or infinite bounds

The values of one parameter from setup on, in floats with infinities, NaN, rounding and overflow: `ParameterManager.setup`,
`fromUnity` and `limit` (ade/population.py:89-96, 172-183, 236-252), `Individual.__sub__`, `__add__` and `__mul__`
(ade/individual.py) as used for challengers, and the steps that use them (ade/population.py:767-792, ade/de.py:531-535).

Simplifications: rounding is a parameter, and so is the least number that is too large for a float (2^1024 for Python's);
there is no underflow and no negative zero.  The number of the other parameters does not matter, as the operations are done
for each parameter separately.  Which challenges are made and which are won is arbitrary here, and so are constraints: all
values proposed are listed.
-/

set_option autoImplicit false

namespace Ade
namespace WideBounds

open PyFloat

/-- The machine's arithmetic: rounding, and the least number that is too large. -/
structure Machine where
  fl : ℚ → ℚ
  top : ℚ

variable (A : Machine)

/-- The float for the exact result of an operation on finite floats. -/
def mk (x : ℚ) : PyFloat :=
  if A.top ≤ A.fl x then pinf else if A.fl x ≤ -A.top then ninf else fin (A.fl x)

/-- `-x` -/
def neg : PyFloat → PyFloat
  | nan => nan
  | ninf => pinf
  | fin x => fin (-x)
  | pinf => ninf

/-- `x + y` -/
def add : PyFloat → PyFloat → PyFloat
  | nan, _ => nan
  | _, nan => nan
  | fin x, fin y => mk A (x + y)
  | pinf, ninf => nan
  | ninf, pinf => nan
  | pinf, _ => pinf
  | _, pinf => pinf
  | ninf, _ => ninf
  | _, ninf => ninf

/-- `x - y` -/
def sub (x y : PyFloat) : PyFloat := add A x (neg y)

/-- An infinity times a finite number: NaN for zero. -/
def infTimes (x : ℚ) : PyFloat := if 0 < x then pinf else if x < 0 then ninf else nan

/-- `x * y` -/
def mul : PyFloat → PyFloat → PyFloat
  | nan, _ => nan
  | _, nan => nan
  | fin x, fin y => mk A (x * y)
  | pinf, fin y => infTimes y
  | fin x, pinf => infTimes x
  | ninf, fin y => neg (infTimes y)
  | fin x, ninf => neg (infTimes x)
  | pinf, pinf => pinf
  | ninf, ninf => pinf
  | pinf, ninf => ninf
  | ninf, pinf => ninf

/-- `np.clip(value, min, max)` for bounds that are not NaN: the value or the lower bound, whichever is larger, and of that and the
upper bound whichever is smaller; NaN stays NaN. -/
def clip (lo hi v : PyFloat) : PyFloat :=
  let w := if v.lt lo then lo else v
  if hi.lt w then hi else w

/-- `limit` for one value (ade/population.py:250-252). -/
def limit (lo hi v : PyFloat) : PyFloat :=
  let v1 := if v.lt lo then sub A (mul A (fin 2) lo) v else v
  let v2 := if hi.lt v1 then sub A (mul A (fin 2) hi) v1 else v1
  clip lo hi v2

/-- `fromUnity` for one value, with the `scales` of `setup` (ade/population.py:95, 182-183). -/
def fromUnity (lo hi u : PyFloat) : PyFloat := add A lo (mul A (sub A hi lo) u)

/-- The value of a new member for the random number `u` (ade/population.py:768-773, 792). -/
def first (lo hi u : PyFloat) : PyFloat := limit A lo hi (fromUnity A lo hi u)

/-- A challenge: the indices of target, base and the two others, the mutation factor, whether crossover takes this parameter
from the mutant, and whether the challenger wins. -/
structure Move where
  kt : ℕ
  kb : ℕ
  k0 : ℕ
  k1 : ℕ
  F : ℚ
  take : Bool
  win : Bool

/-- The challenger's value (ade/de.py:532-535). -/
def challenger (lo hi target base v0 v1 : PyFloat) (F : ℚ) (take : Bool) : PyFloat :=
  limit A lo hi (if take then add A base (mul A (sub A v0 v1) (fin F)) else target)

/-- The values of the members after a challenge, and the challenger's value (ade/de.py:517-550). -/
def step (lo hi : PyFloat) (pop : List PyFloat) (m : Move) : List PyFloat × Option PyFloat :=
  match pop[m.kt]?, pop[m.kb]?, pop[m.k0]?, pop[m.k1]? with
  | some t, some b, some v0, some v1 =>
    let c := challenger A lo hi t b v0 v1 m.F m.take
    (if m.win then pop.set m.kt c else pop, some c)
  | _, _, _, _ => (pop, none)

/-- All challengers' values of a run. -/
def challengers (lo hi : PyFloat) : List PyFloat → List Move → List PyFloat
  | _, [] => []
  | pop, m :: ms =>
    let r := step A lo hi pop m
    r.2.toList ++ challengers lo hi r.1 ms

/-- All values of the parameter proposed for evaluation, from the random numbers of the setup and the challenges. -/
def evaluated (lo hi : PyFloat) (us : List ℚ) (ms : List Move) : List PyFloat :=
  let pop := us.map fun u => first A lo hi (fin u)
  pop ++ challengers A lo hi pop ms

end WideBounds
end Ade
