import Mathlib.Data.List.Sort
import Mathlib.Algebra.Order.Field.Rat

/-!
# Model: the log grepper

`ade/scripts/lgg.py`: `RowManager.trim` and `Grepper.starredNames`. Scores and parameter values are finite
numbers. Parsing of the log file is left out: the entries are given.
-/

set_option autoImplicit false

namespace Ade
namespace Lgg

/-- One row of the arrays `SSE`, `values` (ade/scripts/lgg.py:115-139); stars are left out, they are
selected in the same way. -/
structure Row where
  sse : ℚ
  values : List ℚ
  deriving DecidableEq

/-- `diffEnough` in `trim` (ade/scripts/lgg.py:177-180). -/
def diffEnough (maxDiff a b : ℚ) : Bool :=
  if b = 0 then maxDiff < |a| else maxDiff < |a - b| / b

/-- The condition under which a row is kept next to the row kept last (ade/scripts/lgg.py:188-193). -/
def differs (maxDiff : ℚ) (r last : Row) : Bool :=
  diffEnough maxDiff r.sse last.sse ||
    (List.zip r.values last.values).any fun p => diffEnough maxDiff p.1 p.2

/-- The loop of `trim` over `K[1:]` (ade/scripts/lgg.py:185-193). -/
def trimLoop (maxRatio maxDiff best : ℚ) (last : Row) : List Row → List Row
  | [] => []
  | r :: rs =>
    if maxRatio * best < r.sse then []
    else if differs maxDiff r last then r :: trimLoop maxRatio maxDiff best r rs
    else trimLoop maxRatio maxDiff best last rs

/-- The rows selected in `KS` before the row limit, from rows in the order `np.argsort(self.SSE)`
(ade/scripts/lgg.py:182-193). The order of rows with equal scores is up to numpy. -/
def select (maxRatio maxDiff : ℚ) : List Row → List Row
  | [] => []
  | r :: rs => r :: trimLoop maxRatio maxDiff r.sse r rs

/-- Python's `x[-n:]`: the last `n` items, or all if `n = 0`. -/
def sliceLast {α : Type} (n : ℕ) (xs : List α) : List α :=
  if n = 0 then xs else xs.drop (xs.length - n)

/-- `trim` (ade/scripts/lgg.py:156-197) for sorted rows. -/
def trim (maxRatio maxDiff : ℚ) (maxRows : ℕ) (K : List Row) : List Row :=
  (sliceLast maxRows (select maxRatio maxDiff K)).reverse

/-- `np.argsort(self.SSE)` gives the rows in some order `K` with ascending scores. -/
def IsArgsort (rows K : List Row) : Prop := K.Perm rows ∧ K.Pairwise fun a b => a.sse ≤ b.sse

section Starred
variable {ν : Type} [LinearOrder ν]

/-- A log entry: its score, and for each parameter its name and number of stars
(ade/scripts/lgg.py:225-294). -/
structure Entry (ν : Type) where
  sse : ℚ
  params : List (ν × ℕ)
  deriving DecidableEq

/-- `best[SSE] = pd` on a dict (ade/scripts/lgg.py:305, 310). -/
def put (best : List (Entry ν)) (e : Entry ν) : List (Entry ν) :=
  if best.any fun b => b.sse == e.sse then best.map fun b => if b.sse = e.sse then e else b
  else best ++ [e]

/-- The highest key of a dict: `sorted(best.keys())[-1]` (ade/scripts/lgg.py:307-309). -/
def highest : List (Entry ν) → ℚ
  | [] => 0
  | [b] => b.sse
  | b :: bs => max b.sse (highest bs)

/-- One turn of the loop of `starredNames` (ade/scripts/lgg.py:303-310). -/
def bestStep (N : ℕ) (best : List (Entry ν)) (e : Entry ν) : List (Entry ν) :=
  if best.length < N then put best e
  else if e.sse < highest best then put (best.filter fun b => b.sse ≠ highest best) e
  else best

/-- The dict `best` after all entries. -/
def bestEntries (N : ℕ) (es : List (Entry ν)) : List (Entry ν) := es.foldl (bestStep N) []

/-- The names with stars in the given entries, each once, in order of appearance
(ade/scripts/lgg.py:311-314). -/
def namesOf (best : List (Entry ν)) : List ν :=
  (best.flatMap fun b => (b.params.filter fun x => x.2 ≠ 0).map Prod.fst).foldl
    (fun names n => if n ∈ names then names else names ++ [n]) []

/-- `starredNames` (ade/scripts/lgg.py:296-315), for `N` at least 1. -/
def starredNames (N : ℕ) (es : List (Entry ν)) : List ν :=
  (namesOf (bestEntries N es)).insertionSort (· ≤ ·)

end Starred
end Lgg
end Ade
