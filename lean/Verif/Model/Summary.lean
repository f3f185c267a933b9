import Verif.Model.Population

/-!
# The summary of a population

Model of the first line of `Population.__repr__` (ade/population.py:626-660), of which members its table shows, and of
the evaluation times behind the average it prints: `Population.evalTimes` (ade/population.py:1178-1187) and the attribute
`dt` of `Individual` (ade/individual.py:68-75, 86-92, 137-144, 267-302).

Simplifications: the numbers are given, not their printed forms with five (three) digits; times are exact; the rest of
the text is `LogText.reprPopulation`.
-/

set_option autoImplicit false

namespace Ade
namespace Summary

/-- An individual with its attribute `dt` (ade/individual.py:66). -/
structure Timed where
  ind : Individual
  dt : Option ℚ
  deriving DecidableEq

/-- A new individual (ade/individual.py:68-75). -/
def fresh (values : List ℚ) : Timed := ⟨Individual.spawn values, none⟩

/-- `done` of `evaluate` (ade/individual.py:286-290): `t0` is when the evaluation started, `t1` when it ended. -/
def done (t0 t1 : ℚ) (x : Option PyFloat) (i : Timed) : Timed := ⟨i.ind.setSSE x, some (t1 - t0)⟩

/-- `failed` of `evaluate` (ade/individual.py:291-295). -/
def failed (i : Timed) : Timed := ⟨i.ind.setSSE (some (.fin (-1))), i.dt⟩

/-- `copy` (ade/individual.py:137-144): the time is not copied. -/
def copy (i : Timed) : Timed := ⟨i.ind.copy, none⟩

/-- Pickling and unpickling (ade/individual.py:77-92): the time is kept. -/
def reload (i : Timed) : Timed := ⟨i.ind, i.dt⟩

/-- What happens to an individual. -/
inductive Event where
  | done (t0 t1 : ℚ) (x : Option PyFloat)
  | failed
  | reload

/-- One event. -/
def step (i : Timed) : Event → Timed
  | .done t0 t1 x => done t0 t1 x i
  | .failed => failed i
  | .reload => reload i

/-- `evalTimes` (ade/population.py:1178-1187). -/
def evalTimes (members : List Timed) : List ℚ := members.filterMap Timed.dt

/-- Python's `min` of a list of floats, `none` for the `ValueError` of an empty one: an item replaces the least one so
far if it is less. -/
def pyMin : List PyFloat → Option PyFloat
  | [] => none
  | x :: xs => some (xs.foldl (fun m y => if y.lt m then y else m) x)

/-- Python's `max`. -/
def pyMax : List PyFloat → Option PyFloat
  | [] => none
  | x :: xs => some (xs.foldl (fun m y => if m.lt y then y else m) x)

/-- `np.mean`: NaN for an empty list. -/
def mean (xs : List ℚ) : PyFloat := if xs = [] then .nan else .fin (xs.sum / xs.length)

/-- The numbers of the first line. -/
structure Head where
  number : ℕ
  least : PyFloat
  greatest : PyFloat
  average : PyFloat
  top : ℕ
  deriving DecidableEq

/-- `int((self.pm.maxLineLength-3) / 15)` (ade/population.py:638) with `maxLineLength` 120 (ade/population.py:74). -/
def columnsMax : ℕ := (120 - 3) / 15

/-- The first line (ade/population.py:637-645): `none` for `Population: (empty)`.  `Np` is the attribute, set by the
constructor (ade/population.py:422-423). -/
def head (Np : ℕ) (members : List Timed) : Option Head :=
  let scores := members.map fun i => i.ind.toFloat
  match pyMin scores, pyMax scores with
  | some lo, some hi =>
    some ⟨Np, lo, hi, mean (evalTimes members), min columnsMax members.length⟩
  | _, _ => none

/-- The members shown in the table (ade/population.py:638-640). -/
def shown (sort : List PyFloat → List ℕ) (p : Population.Pop) : List Individual :=
  ((Population.readSorted sort p).2.getD []).take columnsMax

end Summary
end Ade
