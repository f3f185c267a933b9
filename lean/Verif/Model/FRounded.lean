import Verif.Model.FManager
import Verif.Model.Rounding

/-!
# Adaptive mutation factor in floating-point arithmetic

`ade/de.py`, class `FManager` (lines 52-208), once more, with the products as the machine computes them: `mul x y` is
whatever the product of two floats is rounded to.  Sums occur only in `random.uniform`, which is `Rounding.FromUnity`
(the same formula).  The constructor is `FManager.init`; the critical value and the scale-up factors
`scale**-scaleUpPower` are given as the floats they are computed to.
-/

set_option autoImplicit false

namespace Ade
namespace FRounded

open FManager

/-- `down` (ade/de.py:158-185). -/
def down (mul : ℚ → ℚ → ℚ) (c : Consts ℚ) (m : FM ℚ) : FM ℚ :=
  if !m.adaptive then m
  else
    let lowest := m.F.lowest
    let proposed := mul (scale0 c m.F) lowest
    if proposed > c.crit then setLowest m proposed
    else
      match m.F with
      | .range _ hi =>
        let proposed := mul c.sHigh hi
        if proposed > mul c.ratio lowest then setHighest m proposed
        else { m with limited := true }
      | .single _ => { m with limited := true }

/-- The second half of `up` (ade/de.py:206-208). -/
def upLowest (mul : ℚ → ℚ → ℚ) (c : Consts ℚ) (m : FM ℚ) : FM ℚ :=
  let lowest := m.F.lowest
  if lowest < m.origLo then setLowest m (min (mul lowest (up0 c m.F)) m.origLo) else m

/-- `up` (ade/de.py:187-208). -/
def up (mul : ℚ → ℚ → ℚ) (c : Consts ℚ) (m : FM ℚ) : FM ℚ :=
  if !m.adaptive then m
  else
    let m := { m with limited := false }
    match m.F with
    | .range _ hi =>
      if hi < m.origHi then setHighest m (min (mul hi c.upHigh) m.origHi) else upLowest mul c m
    | .single _ => upLowest mul c m

/-- One request. -/
def step (mul : ℚ → ℚ → ℚ) (c : Consts ℚ) (m : FM ℚ) : Op → FM ℚ
  | .up => up mul c m
  | .down => down mul c m

/-- A sequence of requests. -/
def run (mul : ℚ → ℚ → ℚ) (c : Consts ℚ) (m : FM ℚ) (ops : List Op) : FM ℚ := ops.foldl (step mul c) m

/-- `get` (ade/de.py:143-156): `v` is a possible result for the random number `u`; `random.uniform(a, b)` is
`a + (b-a)*u` with three roundings, to floats of `p` bits. -/
def Get (p : ℕ) (m : FM ℚ) (u v : ℚ) : Prop :=
  match m.F with
  | .range lo hi => Rounding.FromUnity p lo hi u v
  | .single x => v = x

end FRounded
end Ade
