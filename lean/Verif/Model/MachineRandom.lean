import Verif.Model.Challenge
import Verif.Model.FManager
import Verif.Model.ReplacementRounded
import Mathlib.Data.Fintype.Pi

/-!
# Random decisions with the random numbers of the machine

Python's `random.random()` and NumPy's `random_sample()` return a multiple of `2^-53` below 1, each of these being equally likely.
The crossover (`ade/de.py`, `DifferentialEvolution.crossover`), the mutation factor (`FManager.get`) and the status quo decision (`ade/population.py`,
`Population._keepStatusQuo`) with such numbers.

* `fl` is the rounding of the arithmetic, a parameter; the theorems ask for roundings to nearest with 53 bits.
* Probabilities are numbers of cases out of all cases.
-/

set_option autoImplicit false

namespace Ade
namespace MachineRandom

/-- The number of different random numbers. -/
def cases : ℕ := 2 ^ 53

/-- `random.random()`, `random_sample()`. -/
def draw (w : Fin cases) : ℚ := w / 2 ^ 53

/-- `random.uniform(a, b)` of the Python library: `a + (b-a) * random()`. -/
def uniform (fl : ℚ → ℚ) (a b : ℚ) (w : Fin cases) : ℚ := fl (a + fl (fl (b - a) * draw w))

/-- `crossover(parent, mutant)` (ade/de.py:444-462); `j` is the forced parameter, `w` gives the results of
`random.uniform(0, 1.0)`. -/
def crossover {α : Type} [Inhabited α] {n : ℕ} (fl : ℚ → ℚ) (CR : ℚ) (j : Fin n) (w : Fin n → Fin cases) (parent mutant : Fin n → α) :
    List α :=
  Challenge.crossoverWith CR n j (fun k => if h : k < n then uniform fl 0 1 (w ⟨k, h⟩) else 0) (List.ofFn parent) (List.ofFn mutant)

/-- `get()` (ade/de.py:143-156). -/
def getF (fl : ℚ → ℚ) (F : FManager.FVal ℚ) (w : Fin cases) : ℚ :=
  match F with
  | .range lo hi => uniform fl lo hi w
  | .single x => x

/-- The status quo decision at the end of a generation (ade/population.py:876-886, 978-986). -/
def inquiry (A : ReplacementRounded.Arith) (rirs : List ℕ) (sqs : ℚ) (w : Fin cases) : Bool :=
  ReplacementRounded.inquiry A rirs sqs (draw w)

end MachineRandom
end Ade
