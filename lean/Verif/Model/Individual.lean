import Verif.Model.PyFloat

/-!
# Individuals

Model of `ade/individual.py`, class `Individual`.  Simplifications: the back reference `p` to the
population and the elapsed time `dt` (see `Verif/Model/Summary.lean`) are left out; the parameter values are a list of finite rationals.
-/

set_option autoImplicit false

namespace Ade

/-- `Individual` (ade/individual.py:42-308): its slot `_SSE` (Python `None` is `none`) and `values`. -/
structure Individual where
  stored : Option PyFloat
  values : List ℚ
  deriving DecidableEq, Repr

namespace Individual

/-- `Individual(p, values)` (ade/individual.py:68-75): score starts as `None`. -/
def spawn (values : List ℚ) : Individual := ⟨none, values⟩

/-- Property `SSE`, getter (ade/individual.py:113-122). -/
def SSE (i : Individual) : PyFloat :=
  match i.stored with
  | none => .pinf
  | some x => if x.lt .zero then .pinf else x

/-- Property `SSE`, setter (ade/individual.py:123-128). -/
def setSSE (i : Individual) (x : Option PyFloat) : Individual := { i with stored := x }

/-- `copy` (ade/individual.py:137-144): the score is taken through the `SSE` property. -/
def copy (i : Individual) : Individual := (spawn i.values).setSSE (some i.SSE)

/-- `__float__` (ade/individual.py:146-151). -/
def toFloat (i : Individual) : PyFloat := if i.SSE.lt .zero then .pinf else i.SSE

/-- `__bool__` (ade/individual.py:175-187).  `SSE >= 0` is Python's `0 <= SSE`. -/
def toBool (i : Individual) : Bool :=
  match i.stored with
  | none => true
  | some x => if x.isNaN then true else PyFloat.le .zero x

/-- `equals` on two individuals (ade/individual.py:200-210), `np.all(self.values == other)`, for
value arrays of the same length. -/
def equals (i j : Individual) : Bool := i.values == j.values

/-- `__eq__` (ade/individual.py:193-198). -/
def eq (i j : Individual) : Bool := i.SSE.eq j.SSE && i.equals j

/-- `__lt__` with another individual (ade/individual.py:212-216). -/
def lt (i j : Individual) : Bool := i.toFloat.lt j.toFloat

/-- `__gt__` with another individual (ade/individual.py:218-222). -/
def gt (i j : Individual) : Bool := j.toFloat.lt i.toFloat

/-- `__lt__` with a number (ade/individual.py:212-216). -/
def ltNum (i : Individual) (x : PyFloat) : Bool := i.toFloat.lt x

/-- `__sub__` (ade/individual.py:224-229), for value arrays of the same length. -/
def sub (i j : Individual) : Individual := spawn (List.zipWith (· - ·) i.values j.values)

/-- `__add__` (ade/individual.py:231-236), for value arrays of the same length. -/
def add (i j : Individual) : Individual := spawn (List.zipWith (· + ·) i.values j.values)

/-- `__mul__` (ade/individual.py:238-242). -/
def scale (i : Individual) (F : ℚ) : Individual := spawn (i.values.map (· * F))

/-- `blacklist` (ade/individual.py:244-250); the cache invalidation in the population is modelled
with the population. -/
def blacklist (i : Individual) : Individual := i.setSSE (some .pinf)

/-- What the Deferred of an evaluation fires with: a score (possibly `None`), or a failure. -/
inductive EvalResult where
  | done (x : Option PyFloat)
  | failed
  deriving DecidableEq, Repr

/-- The end of `evaluate` (ade/individual.py:286-295), callbacks `done` and `failed`, acting on the
individual and on the evaluation counter of its population. -/
def finishEval (i : Individual) (counter : ℕ) : EvalResult → Individual × ℕ
  | .done x => (i.setSSE x, counter + 1)
  | .failed => (i.setSSE (some (.fin (-1))), counter)

end Individual
end Ade
