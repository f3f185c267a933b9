import Mathlib.Analysis.SpecialFunctions.Trigonometric.Basic

/-!
# Model: the status-quo decision

`Population.replacement` and `_keepStatusQuo` (ade/population.py:876-994). Numbers are reals; the
random draw is an argument.
-/

set_option autoImplicit false

namespace Ade
namespace Replacement

/-- `replacementScore` (`none` for `None`) and `statusQuoScore` (ade/population.py:424, 682). -/
structure St where
  score : Option ℝ
  sqs : ℝ

/-- `_keepStatusQuo` (ade/population.py:876-886), with `u` the value of `random_sample()`. -/
noncomputable def keepStatusQuo (score sqs u : ℝ) : Bool :=
  let x := score / sqs
  if x > 1 then true
  else
    let prob := 0.5 + 0.5 * Real.sin (Real.pi * (x - 0.5))
    decide (u < prob)

/-- The arguments of a call of `replacement` (ade/population.py:888), and the random number that
would be drawn during it. -/
structure Call where
  rir : Option ℕ
  sqs : Option ℝ
  u : ℝ

/-- `bool(sqs)` (ade/population.py:975). -/
noncomputable def Call.setsTarget (c : Call) : Option ℝ :=
  match c.sqs with
  | none => none
  | some q => if q = 0 then none else some q

/-- `replacement` (ade/population.py:975-994): new state, and the value returned. -/
noncomputable def replacement (s : St) (c : Call) : St × Option Bool :=
  match c.setsTarget with
  | some q => ({ s with sqs := q }, none)
  | none =>
    match c.rir with
    | none =>
      let s' := { s with score := some 0 }
      match s.score with
      | none => (s', some true)
      | some x => (s', some (keepStatusQuo x s.sqs c.u))
    | some rir =>
      match s.score with
      | none => (s, none)
      | some x =>
        let addition := if rir = 0 then 0.1 else (rir : ℝ) - 0.5
        ({ s with score := some (x + addition) }, none)

/-- A sequence of calls. -/
noncomputable def run (s : St) (cs : List Call) : St := cs.foldl (fun s c => (replacement s c).1) s

/-- A new or cleared population (ade/population.py:424, 682). -/
def new (sqs : ℝ) : St := ⟨none, sqs⟩

end Replacement
end Ade
