import Mathlib.Analysis.Real.Sqrt
import Mathlib.Algebra.Order.Floor.Semiring
import Mathlib.Algebra.Order.Floor.Ring

/-!
# Random selection of population indices

Model of `ade/population.py`, class `ProbabilitySampler` (lines 254-286), `Population.sample`
(lines 1055-1113), `Population.lock`'s argument check (lines 1138-1150), and the choice of indices in
`ade/de.py` `_run` (lines 590-598) and `challenge` (line 513).

Simplifications: floats are reals without rounding; the result of a call of `random.random()` is any
real in [0,1); `random.sample(K, N)` is given by the list of positions it draws.  A loop that has used
up the given list of draws without finishing is reported as `pending`.
-/

set_option autoImplicit false

namespace Ade
namespace Sampler

/-- The results of the (at most two) `random.random()` calls behind one call of the sampler. -/
structure Draw where
  /-- `random.random()` in `trapz` (ade/population.py:273) -/
  sel : ℝ
  /-- the call inside `random.triangular` or `random.uniform` -/
  u : ℝ

/-- `random.triangular(0, high, 0)` of the Python library for the draw `u`:
`low + (high-low)*sqrt(u*c)` with the ends swapped since the mode is the low end, and `low` if
`high == low`. -/
noncomputable def triangular0 (high u : ℝ) : ℝ :=
  if high = 0 then 0 else if 0 < u then high + (0 - high) * Real.sqrt (1 - u) else 0

/-- `trapz(rc)` (ade/population.py:266-277). -/
noncomputable def trapz (rc : ℝ) (d : Draw) : ℝ :=
  let prTri : ℝ := if 1 ≤ rc then 0 else (1 - rc) / (1 + rc)
  if d.sel < prTri then rc + triangular0 (1 - rc) d.u
  else 0 + (rc - 0) * d.u

/-- The variate `rv` of `__call__` (ade/population.py:280-285). -/
noncomputable def variate (rb : ℝ) (d : Draw) : ℝ :=
  if 1 / 2 < rb then trapz (2 * (rb - 1 / 2)) d else triangular0 (2 * rb) d.u

/-- `int(x)` of Python: towards zero. -/
noncomputable def truncate (x : ℝ) : ℤ := if 0 ≤ x then ⌊x⌋ else ⌈x⌉

/-- `K[i]` of Python, `none` for the `IndexError`: negative numbers count from the end. -/
def item (K : List ℕ) (i : ℤ) : Option ℕ :=
  if 0 ≤ i then K[i.toNat]?
  else if 0 ≤ i + K.length then K[(i + K.length).toNat]?
  else none

/-- `K[int(rv*len(K))]` (ade/population.py:286), `none` for the `IndexError`. -/
noncomputable def call (K : List ℕ) (rb : ℝ) (d : Draw) : Option ℕ := item K (truncate (variate rb d * K.length))

/-- The keyword `randomBase`: something false (`False`, `0`, `0.0`, `None`), `True` or `1.0`, or
another number. -/
inductive Bias where
  | falsy
  | one
  | num (rb : ℝ)

/-- Result of `sample`. -/
inductive Result where
  | value (ks : List ℕ)
  | valueError
  | indexError
  | pending
  deriving DecidableEq

/-- `while len(result) < N` (ade/population.py:1108-1112). -/
noncomputable def loop (K : List ℕ) (rb : ℝ) (N : ℕ) : List ℕ → List Draw → Result
  | result, ds =>
    if result.length < N then
      match ds with
      | [] => .pending
      | d :: ds =>
        match call K rb d with
        | none => .indexError
        | some k => if k ∈ result then loop K rb N result ds else loop K rb N (result ++ [k]) ds
    else .value result
  termination_by _ ds => ds.length

/-- `random.sample(K, N)`, drawing the positions `pos`. -/
def randomSample (K : List ℕ) (N : ℕ) (pos : List ℕ) : Result :=
  if K.length < N then .valueError else .value (pos.filterMap fun p => K[p]?)

/-- `[k for k in self.KS if k not in exclude]` (ade/population.py:1094). -/
def candidates (KS exclude : List ℕ) : List ℕ := KS.filter fun k => !exclude.contains k

/-- `sample(N, *exclude, randomBase=rb)` (ade/population.py:1094-1113).  The result is always given as
a list (Python returns the bare element when `N == 1`). -/
noncomputable def sample (KS : List ℕ) (N : ℕ) (exclude : List ℕ) (b : Bias) (pos : List ℕ)
    (ds : List Draw) : Result :=
  let K := candidates KS exclude
  match b with
  | .falsy =>
    if 1 < N then .valueError
    else match K with
      | [] => .indexError
      | k :: _ => .value [k]
  | .one => randomSample K N pos
  | .num rb => if 1 < rb then .valueError else loop K rb N [] ds

/-- The choice of the base index for target `kt` (ade/de.py:591-593). -/
noncomputable def chooseBase (KS : List ℕ) (randomBase : Bias) (kt : ℕ) (pos : List ℕ) (ds : List Draw) :
    Result :=
  match randomBase with
  | .falsy =>
    if KS.head? = some kt then sample KS 1 [kt] .falsy pos ds
    else match KS with
      | [] => .indexError
      | k :: _ => .value [k]
  | b => sample KS 1 [kt] b pos ds

/-- The two other indices (ade/de.py:513; the keyword's default is `True`). -/
noncomputable def chooseOthers (KS : List ℕ) (kt kb : ℕ) (pos : List ℕ) : Result :=
  sample KS 2 [kt, kb] .one pos []

/-- What `lock(*indices)` does with its arguments (ade/population.py:1140-1150). -/
inductive LockRequest where
  | valueError
  | invalidIndex
  | acquires (ks : List ℕ)
  deriving DecidableEq

/-- The loop of `lock` (ade/population.py:1141-1149) over `rest`, with all arguments `all`, for `n`
locks.  The locks requested before a `ValueError` or an invalid index stay requested. -/
def lockLoop (n : ℕ) (all : List ℕ) : List ℕ → LockRequest
  | [] => .acquires all
  | k :: rest =>
    if 1 < all.count k then .valueError
    else if n ≤ k then .invalidIndex
    else lockLoop n all rest

/-- `lock(*indices)` for a population that is not aborting. -/
def lock (n : ℕ) (indices : List ℕ) : LockRequest := lockLoop n indices indices

end Sampler
end Ade
