import Verif.Model.Analysis
import Mathlib.Data.String.Basic

/-!
# Model: figures of a history

Model of `ade/history.py`, class `Analysis`: `args2names`, `value_vs_SSE`, `pick_N`, `plot`, `correlator`,
`plotCorrelated`, `Kf12` and the weights of `lineFit`. Drawing itself (yampex, Matplotlib) is left out: a
figure is the list of its subplots, each with its title and the points of its series. Numbers are exact and
finite. Correlation coefficients are given by a function; a parameter that never changes has no correlation
coefficient (NaN), which is left out.
-/

set_option autoImplicit false

namespace Ade
namespace Figures

open Analysis

/-- An argument that selects parameters: an integer or a name (ade/history.py:171-182). -/
inductive NameArg where
  | int (n : ℤ)
  | name (s : String)
  deriving DecidableEq

/-- `sorted(self.names)` (ade/history.py:184, 187). -/
def sortedNames (names : List String) : List String := names.insertionSort (· ≤ ·)

/-- One end of a Python slice of a list of length `n`, as a position. -/
def slicePos (n : ℕ) (i : ℤ) : ℕ := min n (if i < 0 then i + n else i).toNat

/-- `xs[start:stop]`. -/
def slice {α : Type} (xs : List α) (start stop : ℤ) : List α :=
  (xs.take (slicePos xs.length stop)).drop (slicePos xs.length start)

/-- The names among the arguments, if they are all names. -/
def allNames : List NameArg → Option (List String)
  | [] => some []
  | .name s :: as => (allNames as).map (s :: ·)
  | .int _ :: _ => none

/-- `args2names` (ade/history.py:171-187). A mixture of integers and names is returned as it is; the integer
then makes `name2k` raise an exception, here it is `none` at once. Three integers (a slice with a step) are
left out, more are a `TypeError`. -/
def args2names (names : List String) (args : List NameArg) : Option (List String) :=
  match args with
  | [] => some (sortedNames names)
  | [.int stop] => some (slice (sortedNames names) 0 stop)
  | [.int start, .int stop] => some (slice (sortedNames names) start stop)
  | _ => allNames args

/-- The array `X` (ade/history.py:81-88): row and column to value, column 0 is the score. -/
abbrev Data := ℕ → ℕ → ℚ

/-- An `Analysis` object (ade/history.py:103-109). -/
structure An where
  names : List String
  X : Data
  K : List ℕ
  Kp : Finset ℕ
  Kn : Finset ℕ

/-- `value_vs_SSE` (ade/history.py:203-240): the scores and the values of each named parameter; `none` if it
raises an exception. -/
def columns (a : An) (names : List String) (m : Mode) (maxRatio : ℚ) : Option (List (List ℚ)) :=
  match queryRows (fun k => a.X k 0) a.K a.Kp a.Kn m maxRatio, names.mapM (name2k a.names) with
  | some rows, some cols => some ((0 :: cols).map fun c => rows.map fun k => a.X k c)
  | _, _ => none

/-- `pick_N` (ade/history.py:258-272), from the number of parameters left. -/
def pickN (left : ℕ) : ℕ :=
  if left = 8 ∨ left = 10 then 4
  else if left > 8 then 9
  else left

/-- The number of columns of a figure with `N` subplots (ade/history.py:437). -/
def figCols (N : ℕ) : ℕ := if N = 1 then 1 else if N > 6 then 3 else 2

/-- The loop over the figures (ade/history.py:434-441): for each figure, the number of columns and what is
shown. The loop ends because at least one item is taken each time; the first argument is the number of
rounds allowed. -/
def pages {α : Type} : ℕ → List α → List (ℕ × List α)
  | 0, _ => []
  | n + 1, xs =>
    if xs.isEmpty then []
    else
      let N := pickN xs.length
      (figCols N, xs.take N) :: pages n (xs.drop N)

/-- A subplot: its title and the points of its series (ade/history.py:398-409). -/
structure Subplot where
  title : String
  series : List (List (ℚ × ℚ))
  deriving DecidableEq

/-- The points of parameter `k` from the result of `value_vs_SSE`. -/
def points (cols : List (List ℚ)) (k : ℕ) : List (ℚ × ℚ) :=
  List.zip (cols.getD 0 []) (cols.getD (k + 1) [])

/-- The results of `value_vs_SSE` used by `plot` (ade/history.py:416-425): current members, and, unless only
those are wanted, former members and those that never were. -/
def plotColumns (a : An) (names : List String) (inPop : Bool) (maxRatio : ℚ) :
    Option (List (List (List ℚ))) :=
  if inPop then [columns a names .inPop maxRatio].mapM id
  else [columns a names .inPop maxRatio, columns a names .former maxRatio,
    columns a names .never maxRatio].mapM id

/-- `plot` without the keyword `sp` (ade/history.py:361-443): the figures, each with its number of columns and
its subplots; `none` if it raises an exception, as it also does when there is nothing to plot (`pt` is not
set). -/
def plot (a : An) (args : List NameArg) (inPop : Bool) (maxRatio : ℚ) :
    Option (List (ℕ × List Subplot)) :=
  match args2names a.names args with
  | none => none
  | some names =>
    match plotColumns a names inPop maxRatio with
    | none => none
    | some xys =>
      let kList := List.range names.length
      if kList.isEmpty then none
      else some ((pages kList.length kList).map fun p =>
        (p.1, p.2.map fun k => ⟨names.getD k "", xys.map fun cols => points cols k⟩))

/-- The two loops of `correlator` (ade/history.py:133-138): pairs of columns with their correlation
coefficient, for a total of `nc` columns. -/
def combos (nc : ℕ) (R : ℕ → ℕ → ℚ) : List (ℕ × ℕ × ℚ) :=
  (List.range' 1 (nc - 1)).flatMap fun k1 =>
    ((List.range' 1 (nc - 1)).filter fun k2 => k1 < k2).map fun k2 => (k1, k2, R k1 k2)

/-- `correlator` (ade/history.py:121-141). The sort is stable also with `reverse=True`. -/
def correlator (nc : ℕ) (R : ℕ → ℕ → ℚ) : List (ℕ × ℕ × ℚ) :=
  (combos nc R).insertionSort fun a b => |b.2.2| ≤ |a.2.2|

/-- The loop of `plotCorrelated` (ade/history.py:523-535), with `n` pairs shown so far out of `N`. -/
def showLoop (names : List String) (name : Option String) (N : ℕ) :
    ℕ → List (ℕ × ℕ × ℚ) → List (ℕ × ℕ × ℚ)
  | _, [] => []
  | n, p :: ps =>
    if name.isSome && name ≠ k2name names p.1 then showLoop names name N n ps
    else if n + 1 = N then [p]
    else p :: showLoop names name N (n + 1) ps

/-- `plotCorrelated` (ade/history.py:495-537): the pairs shown, `none` if there is no figure. A name that is
the empty text counts as no name, which is left out here. The number of combinations is a float in the code,
which makes no difference for the pairs shown. -/
def plotCorrelated (names : List String) (R : ℕ → ℕ → ℚ) (name : Option String) (N : ℕ) :
    Option (List (ℕ × ℕ × ℚ)) :=
  let nCombos := names.length * (names.length - 1) / 2
  if nCombos = 0 then none
  else some (showLoop names name (min nCombos N) 0 (correlator (names.length + 1) R))

/-- `Kf12` (ade/history.py:143-156), of an object with at least one record; the scores are sorted, so the last
is the highest. -/
def fraction (sse : ℕ → ℚ) (K : List ℕ) (f1 f2 : ℚ) : List ℕ :=
  let lo := sse (K.headD 0)
  let hi := sse (K.getLastD 0)
  K.filter fun k => decide (lo + f1 * (hi - lo) ≤ sse k) && decide (sse k < lo + f2 * (hi - lo))

/-- `fmms` (ade/history.py:92-99): upper ends of the ranges drawn with different markers, and the marker
size. -/
def fmms : List (ℚ × ℚ) :=
  [(5/100, 3), (10/100, 2), (20/100, 3/2), (50/100, 1), (70/100, 1/2), (101/100, 0)]

/-- The loop of `plotXY` (ade/history.py:473-482): the marker sizes used, each with the records drawn with it, for a
function that selects a range. -/
def marked (select : ℚ → ℚ → List ℕ) (f1 : ℚ) : List (ℚ × ℚ) → List (ℚ × List ℕ)
  | [] => []
  | (f2, ms) :: rest =>
    if ms = 0 then marked select f2 rest else (ms, select f1 f2) :: marked select f2 rest

/-- The records drawn with each marker size. -/
def groups (select : ℚ → ℚ → List ℕ) (f1 : ℚ) (l : List (ℚ × ℚ)) : List (List ℕ) :=
  (marked select f1 l).map Prod.snd

/-- The weight of a record in `lineFit` (ade/history.py:252-254), `none` for NaN. -/
def weight (best s : ℚ) : Option ℚ := if s + best = 0 then none else some (2 * best / (s + best))

end Figures
end Ade
