import Verif.Model.Reporter
import Verif.Model.Replacement

/-!
# Model: reports and the status-quo score together

`Population.report` passes the ratio that the reporter returns to `Population.replacement`
(ade/population.py:1026-1027), and the reporter itself passes a bonus for a new best individual
(ade/report.py:460-464).  `Verif/Model/Reporter.lean` collects those ratios in the list `repl`; here
each of them changes the score of `Verif/Model/Replacement.lean` as soon as it is passed.
-/

set_option autoImplicit false

namespace Ade
namespace Generation

/-- The reporter of a population together with its score. -/
structure Pop where
  rep : Reporter.St
  sq : Replacement.St

/-- What happens in the course of a generation: any event of the reporter, or the inquiry at its end
(ade/de.py:615) with the random number that would be drawn. -/
inductive Event where
  | reporter (e : Reporter.Event)
  | inquiry (u : ℝ)

/-- The ratios newly passed to `replacement`, oldest first. -/
def news (s s' : Reporter.St) : List ℕ := s'.repl.drop s.repl.length

/-- One event (ade/population.py:1026-1028, ade/report.py:464, ade/de.py:615); `none` if it cannot
happen. -/
noncomputable def step (n : ℕ) (p : Pop) : Event → Option Pop
  | .reporter e =>
    match Reporter.step n p.rep e with
    | none => none
    | some s => some ⟨s, Replacement.run p.sq ((news p.rep s).map fun q => ⟨some q, none, 0⟩)⟩
  | .inquiry u => some ⟨p.rep, (Replacement.replacement p.sq ⟨none, none, u⟩).1⟩

/-- A sequence of events. -/
noncomputable def run (n : ℕ) (p : Pop) : List Event → Option Pop
  | [] => some p
  | e :: es =>
    match step n p e with
    | none => none
    | some p' => run n p' es

/-- The answer to an inquiry made now (ade/population.py:978-986). -/
noncomputable def answer (p : Pop) (u : ℝ) : Option Bool :=
  (Replacement.replacement p.sq ⟨none, none, u⟩).2

end Generation
end Ade
