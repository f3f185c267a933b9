import Verif.Model.ParamManager
import Verif.Model.DESystem

/-!
# One challenge: mutation, crossover, limiting, constraints, evaluation

Model of what `ade/de.py` `challenge` (lines 531-542) does between having its locks and the end of the
evaluation, in terms of `Verif/Model/Individual.lean` and `Verif/Model/ParamManager.lean`.

Simplifications: values are exact rationals; random draws are arguments; the evaluator is a function of
the values and (with `xSSE`) the target's score.
-/

set_option autoImplicit false

namespace Ade
namespace Challenge

/-- Random outcomes of one challenge: `fm.get()` (ade/de.py:532), `random.randint(0, Nd-1)`
(ade/de.py:452), and `random.uniform(0, 1.0)` for each parameter (ade/de.py:457). -/
structure Draws where
  F : ℚ
  j : ℕ
  u : ℕ → ℚ

/-- Settings: bounds, names and constraints of the population, `CR` and `xSSE`. -/
structure Config where
  bounds : List Bound
  names : List String
  constraints : List (ParamManager.Dict → Bool)
  CR : ℚ
  xSSE : Bool

/-- `iBase + (i0 - i1) * self.fm.get()` (ade/de.py:532). -/
def donor (iBase i0 i1 : Individual) (F : ℚ) : Individual := iBase.add ((i0.sub i1).scale F)

/-- `crossover(parent, mutant)` (ade/de.py:444-462) for any kind of values and random numbers: `j` is the
forced parameter, `u` the uniform random numbers. -/
def crossoverWith {α β : Type} [Inhabited α] [LT β] [DecidableLT β] (CR : β) (Nd : ℕ) (j : ℕ) (u : ℕ → β)
    (parent mutant : List α) : List α :=
  (List.range Nd).foldl (fun m k =>
    if k = j then m
    else if CR < u k then m.set k (parent.getD k default)
    else m) mutant

/-- `crossover(parent, mutant)` (ade/de.py:444-462) on the values; `Nd` is the number of
parameters.  Reading `parent[k]` beyond its end is not possible there. -/
def crossover (CR : ℚ) (Nd : ℕ) (d : Draws) (parent mutant : List ℚ) : List ℚ :=
  crossoverWith CR Nd d.j d.u parent mutant

/-- The challenger's values after mutation, crossover and limiting (ade/de.py:532-535). -/
def challenger (c : Config) (d : Draws) (t b i0 i1 : Individual) : List ℚ :=
  ParamManager.limit c.bounds
    (crossover c.CR c.bounds.length d t.values (donor b i0 i1 d.F).values)

/-- The challenger made and evaluated (ade/de.py:532-542, 557): the evaluator is given the values and
the `xSSE` keyword. -/
def trial (c : Config) (d : Draws) (eval : List ℚ → Option PyFloat → Individual.EvalResult)
    (t b i0 i1 : Individual) : DESystem.Outcome Individual :=
  let v := challenger c d t b i0 i1
  if ParamManager.passesConstraints c.names c.constraints v then
    let i := ((Individual.spawn v).finishEval 0 (eval v (if c.xSSE then some t.SSE else none))).1
    if i.toBool then .evaluated i else .fatal
  else .failedConstraints

/-- A run's parameters: challenge `n` has the given indices, draws and evaluator. -/
def params (c : Config) (idx : ℕ → ℕ × ℕ × ℕ × ℕ) (draws : ℕ → Draws)
    (eval : ℕ → List ℚ → Option PyFloat → Individual.EvalResult) : DESystem.Params Individual where
  lt := Individual.lt
  xSSE := c.xSSE
  req n := ⟨(idx n).1, (idx n).2.1, (idx n).2.2.1, (idx n).2.2.2, trial c (draws n) (eval n)⟩

end Challenge
end Ade
