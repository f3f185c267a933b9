import Mathlib.Algebra.Order.Field.Basic

/-!
# Adaptive mutation factor

Model of `ade/de.py`, class `FManager` (lines 52-208), over any ordered field `K` (the reals for the
actual constants, the rationals for examples).

Simplifications: no rounding; the critical value `sqrt((1-0.5*CR)/Np)` and the scale-up factors
`scale**-scaleUpPower` are parameters (their actual values are in `Verif/Props/FManager.lean`);
`random.uniform` is given by its draw.
-/

set_option autoImplicit false

namespace Ade
namespace FManager

/-- The value `F`: a range (a sequence) or a single number (ade/de.py:84-94). -/
inductive FVal (K : Type) where
  | range (lo hi : K)
  | single (x : K)
  deriving DecidableEq

/-- Constants: `scaleLowest`, `scaleHighest`, `scaleSingle`, `minHighestVsLowest` (ade/de.py:74-79), the
critical value (ade/de.py:83), and the three scale-up factors (ade/de.py:196-197). -/
structure Consts (K : Type) where
  sLow : K
  sHigh : K
  sSingle : K
  ratio : K
  crit : K
  upLow : K
  upHigh : K
  upSingle : K

/-- An `FManager` object. -/
structure FM (K : Type) where
  F : FVal K
  adaptive : Bool
  origLo : K
  origHi : K
  limited : Bool
  deriving DecidableEq

variable {K : Type}

/-- Property `lowest`, getter (ade/de.py:107-112). -/
def FVal.lowest : FVal K → K
  | .range lo _ => lo
  | .single x => x

/-- Property `highest`, getter (ade/de.py:125-130). -/
def FVal.highest : FVal K → K
  | .range _ hi => hi
  | .single x => x

section
variable [Field K] [LinearOrder K]

/-- `__init__` (ade/de.py:81-97). -/
def init (c : Consts K) (F : FVal K) (adaptive : Bool) : FM K :=
  match F with
  | .range lo hi =>
    let lo' := if lo = 0 then c.crit else lo
    ⟨.range lo' hi, if lo = 0 then false else adaptive, lo', hi, false⟩
  | .single x => ⟨.single x, adaptive, x, x, false⟩

/-- Property `lowest`, setter (ade/de.py:113-123). -/
def setLowest (m : FM K) (v : K) : FM K :=
  let v := if v > m.origLo then m.origLo else v
  match m.F with
  | .range _ hi => { m with F := .range v hi }
  | .single _ => { m with F := .single v }

/-- Property `highest`, setter (ade/de.py:131-141). -/
def setHighest (m : FM K) (v : K) : FM K :=
  let v := if v > m.origHi then m.origHi else v
  match m.F with
  | .range lo _ => { m with F := .range lo v }
  | .single _ => { m with F := .single v }

/-- `get` (ade/de.py:143-156); `random.uniform(a, b)` is `a + (b-a)*u` for a draw `u`. -/
def get (m : FM K) (u : K) : K :=
  match m.F with
  | .range lo hi => lo + (hi - lo) * u
  | .single x => x

/-- `self.scales[0]` (ade/de.py:91, 94). -/
def scale0 (c : Consts K) : FVal K → K
  | .range _ _ => c.sLow
  | .single _ => c.sSingle

/-- `down` (ade/de.py:158-185). -/
def down (c : Consts K) (m : FM K) : FM K :=
  if !m.adaptive then m
  else
    let lowest := m.F.lowest
    let proposed := scale0 c m.F * lowest
    if proposed > c.crit then setLowest m proposed
    else
      match m.F with
      | .range _ hi =>
        let proposed := c.sHigh * hi
        if proposed > c.ratio * lowest then setHighest m proposed
        else { m with limited := true }
      | .single _ => { m with limited := true }

/-- The scale-up factor of `self.scales[0]` (ade/de.py:196-197, 208). -/
def up0 (c : Consts K) : FVal K → K
  | .range _ _ => c.upLow
  | .single _ => c.upSingle

/-- The second half of `up` (ade/de.py:206-208). -/
def upLowest (c : Consts K) (m : FM K) : FM K :=
  let lowest := m.F.lowest
  if lowest < m.origLo then setLowest m (min (lowest * up0 c m.F) m.origLo) else m

/-- `up` (ade/de.py:187-208). -/
def up (c : Consts K) (m : FM K) : FM K :=
  if !m.adaptive then m
  else
    let m := { m with limited := false }
    match m.F with
    | .range _ hi =>
      if hi < m.origHi then setHighest m (min (hi * c.upHigh) m.origHi) else upLowest c m
    | .single _ => upLowest c m

/-- A scaling request. -/
inductive Op where
  | up
  | down
  deriving DecidableEq

/-- One request. -/
def step (c : Consts K) (m : FM K) : Op → FM K
  | .up => up c m
  | .down => down c m

/-- A sequence of requests. -/
def run (c : Consts K) (m : FM K) (ops : List Op) : FM K := ops.foldl (step c) m

end
end FManager
end Ade
