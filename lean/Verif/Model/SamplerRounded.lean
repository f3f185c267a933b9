import Verif.Model.Sampler
import Verif.Model.Rounding
import Mathlib.Data.Rat.Floor

/-!
# Random selection of an index, in floats

`ProbabilitySampler` (ade/population.py:254-286) again, with the result of each operation on floats rounded; compare
`Verif/Model/Sampler.lean`, where floats are reals.

Simplifications: floats have 53 bits and any exponent (no overflow, no loss of bits in tiny numbers), so
multiplication by two and the negative of a float need no rounding; `random.random()` is any multiple of `2 ^ -53` in
[0,1), as its documentation says.
-/

set_option autoImplicit false

namespace Ade
namespace SamplerRounded

/-- The machine's arithmetic: the result of an operation rounded, and the square root. -/
structure Arith where
  rnd : ℚ → ℚ
  sqrt : ℚ → ℚ

/-- The results of the (at most two) `random.random()` calls behind one call of the sampler. -/
structure Draw where
  /-- `random.random()` in `trapz` (ade/population.py:273) -/
  sel : ℚ
  /-- the call inside `random.triangular` or `random.uniform` -/
  u : ℚ

variable (A : Arith)

/-- `random.triangular(0, high, 0)` of the Python library for the draw `u`: `c = (0-0)/(high-0)`, 0 for the
`ZeroDivisionError`; if `u > c`, `u = 1-u`, `c = 1-c` and the ends are swapped; then `low + (high-low)*sqrt(u*c)`. -/
def triangular0 (high u : ℚ) : ℚ :=
  if high = 0 then 0
  else if 0 < u then A.rnd (high + A.rnd ((0 - high) * A.sqrt (A.rnd (1 - u))))
  else 0

/-- `random.uniform(0, b)` of the Python library for the draw `u`: `0 + (b-0)*u`. -/
def uniform0 (b u : ℚ) : ℚ := A.rnd (b * u)

/-- `trapz(rc)` (ade/population.py:266-277). -/
def trapz (rc : ℚ) (d : Draw) : ℚ :=
  let prTri : ℚ := if 1 ≤ rc then 0 else A.rnd (A.rnd (1 - rc) / A.rnd (1 + rc))
  if d.sel < prTri then A.rnd (rc + triangular0 A (A.rnd (1 - rc)) d.u)
  else uniform0 A rc d.u

/-- The variate `rv` of `__call__` (ade/population.py:280-285). -/
def variate (rb : ℚ) (d : Draw) : ℚ :=
  if 1 / 2 < rb then trapz A (2 * A.rnd (rb - 1 / 2)) d else triangular0 A (2 * rb) d.u

/-- `int(x)` of Python: towards zero. -/
def truncate (x : ℚ) : ℤ := if 0 ≤ x then ⌊x⌋ else ⌈x⌉

/-- `K[int(rv*len(K))]` (ade/population.py:286), `none` for the `IndexError`. -/
def call (K : List ℕ) (rb : ℚ) (d : Draw) : Option ℕ := Sampler.item K (truncate (A.rnd (variate A rb d * K.length)))

/-- `sample(1, *exclude, randomBase=rb)` for a number `rb` that is neither 0 nor 1 (ade/population.py:1094-1113). -/
def sampleOne (KS exclude : List ℕ) (rb : ℚ) (d : Draw) : Sampler.Result :=
  let K := Sampler.candidates KS exclude
  if 1 < rb then .valueError
  else match call A K rb d with
    | none => .indexError
    | some k => .value [k]

end SamplerRounded
end Ade
