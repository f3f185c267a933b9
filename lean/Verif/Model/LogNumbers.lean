import Verif.Model.Format
import Verif.Model.LogText

/-!
# Individuals and populations printed with their numbers

Model of `Individual.__repr__` (ade/individual.py:94-100) and `Population.__repr__` (ade/population.py:625-660) with the
formats of their numbers.

Simplifications: scores, values and the average evaluation time are finite; they are given by their exact values, rational
numbers.
-/

set_option autoImplicit false

namespace Ade
namespace LogNumbers

open Format
open LogText (Str Member Param reprIndividual reprPopulation)

/-- An individual: its score and its values by name. -/
structure Ind where
  score : ℚ
  val : Str → ℚ

/-- The individual as it is printed: its score is `{:>10.5g}` in columns (ade/population.py:647) and `SSE={:.4f}` in `repr`
(ade/individual.py:99). -/
def Ind.member (i : Ind) : Member := ⟨general 5 i.score, fixed 4 i.score, i.val⟩

/-- `repr(individual)`, values being printed with `{:g}` (ade/population.py:127). -/
def Ind.repr (params : List Param) (i : Ind) : List Str :=
  reprIndividual (general 6) i.member.sse4 (i.member.pvs params)

/-- How many individuals the table has at most (ade/population.py:638). -/
def maxTop : ℕ := (LogText.maxLineLength - 3) / 15

/-- The first line (ade/population.py:641-645): size, lowest and highest score, average time, and number of columns. -/
def headLine (size : ℕ) (lo hi avg : ℚ) (top : ℕ) : Str :=
  "Population: ".toList ++ decimal size ++ " individuals with SSE ".toList ++ general 5 lo ++ " to ".toList ++ general 5 hi ++
    ", avg eval time ".toList ++ general 3 avg ++ " sec. Top ".toList ++ decimal top ++ ":".toList

/-- The lowest of some numbers. -/
def lowest (x : ℚ) (xs : List ℚ) : ℚ := xs.foldl min x

/-- The highest of some numbers. -/
def highest (x : ℚ) (xs : List ℚ) : ℚ := xs.foldl max x

/-- `repr(population)` for a population with at least one individual (ade/population.py:637-660): `best` is the first one of
`iSorted`, `rest` are the others. -/
def popText (params : List Param) (avg : ℚ) (best : Ind) (rest : List Ind) : List Str :=
  let tops := (best :: rest).take maxTop
  let scores := rest.map Ind.score
  reprPopulation (general 6) (general 5)
    (headLine (rest.length + 1) (lowest best.score scores) (highest best.score scores) avg tops.length)
    params (tops.map Ind.member) best.member

end LogNumbers
end Ade
