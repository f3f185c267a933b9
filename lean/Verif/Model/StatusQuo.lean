import Verif.Model.Replacement
import Verif.Model.Population

/-!
# Model: the target score of a population

The part of `Population.__init__` that sets the target of the status-quo decision (ade/population.py:413-414, 424), and
one generation as `DifferentialEvolution._run` sees it: an inquiry, the reports of replacements, the next inquiry
(ade/de.py:615 calls `replacement()` once in each generation). Numbers are reals.
-/

set_option autoImplicit false

namespace Ade
namespace StatusQuo

open Replacement

/-- `self.targetFraction` (ade/population.py:394, 413-414): the keyword if it is given and not zero. -/
noncomputable def fraction (targetFraction : Option ℝ) : ℝ :=
  match targetFraction with
  | none => 0.02
  | some f => if f = 0 then 0.02 else f

/-- `self.statusQuoScore` of a new population (ade/population.py:424). -/
noncomputable def target (targetFraction : Option ℝ) (popsize : Option ℤ) (Nd : ℕ) : ℝ :=
  fraction targetFraction * Population.sizeOf popsize Nd

/-- The replacement record of a new population (ade/population.py:420, 424, 682). -/
noncomputable def created (targetFraction : Option ℝ) (popsize : Option ℤ) (Nd : ℕ) : St :=
  new (target targetFraction popsize Nd)

/-- The answer of the inquiry at the end of a generation in which replacements with the improvement ratios `rirs` were
reported, after the generations with the ratios `past`, each ended by an inquiry (ade/population.py:975-994). The
random numbers of the earlier inquiries are 0, which has no effect on the record. -/
noncomputable def answer (s : St) (past : List (List ℕ)) (rirs : List ℕ) (u : ℝ) : Option Bool :=
  let gen (g : List ℕ) : List Call := g.map (fun r => ⟨some r, none, 0⟩) ++ [⟨none, none, 0⟩]
  (replacement (run s ((past.map gen).flatten ++ rirs.map fun r => ⟨some r, none, 0⟩)) ⟨none, none, u⟩).2

end StatusQuo
end Ade
