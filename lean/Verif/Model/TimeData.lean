import Mathlib.Data.Rat.Defs
import Mathlib.Algebra.Order.Ring.Rat

/-!
# Readings from a CSV file

Model of `Data.load` and `TimeData.parseValues` (ade/examples/data.py:78-163).  The rows come as the `csv` module gives
them, as lists of strings; the conversion of a string to a number is a parameter.  Simplifications: no download and no
decompression; numbers are exact and none is NaN or infinite.  `sort(None, key)` is that of Python 2.
-/

set_option autoImplicit false

namespace Ade
namespace TimeData

/-- The rows of the file without the comments (ade/examples/data.py:97-106); `none` for the exception that an empty row
raises. -/
def load : List (List (List Char)) → Option (List (List (List Char)))
  | [] => some []
  | [] :: _ => none
  | (c :: row) :: rows =>
    if c.head? = some '#' then load rows else (load rows).map fun l => (c :: row) :: l

/-- A row of numbers: the time and the rest. -/
abbrev Reading := ℚ × List ℚ

/-- Conversion of a row (ade/examples/data.py:145); the row is not empty. -/
def reading (float : List Char → Option ℚ) : List (List Char) → Option Reading
  | [] => none
  | c :: row =>
    match float c, row.mapM float with
    | some x, some l => some (x, l)
    | _, _ => none

/-- Insertion that keeps the order of equal times. -/
def insert (r : Reading) : List Reading → List Reading
  | [] => [r]
  | x :: l => if r.1 ≤ x.1 then r :: x :: l else x :: insert r l

/-- `value_lists.sort(None, lambda x: x[0])` (ade/examples/data.py:148). -/
def sort : List Reading → List Reading
  | [] => []
  | r :: l => insert r (sort l)

/-- A range of row indices; `none` stands for no end. -/
abbrev Range := ℕ × Option ℕ

/-- The loop over the ranges (ade/examples/data.py:154-157): how many times `addList` is called. -/
def added (k : ℕ) : List Range → ℕ
  | [] => 0
  | (k0, k1) :: rs => if k0 ≤ k ∧ (k1 = none ∨ ∃ e ∈ k1, k < e) then 1 else added k rs

/-- The loop over the rows (ade/examples/data.py:152-158). -/
def select (ranges : List Range) (t0 : ℚ) : ℕ → List Reading → List ℚ × List (List ℚ)
  | _, [] => ([], [])
  | k, r :: l =>
    let rest := select ranges t0 (k + 1) l
    let n := if ranges = [] then 1 else added k ranges
    (List.replicate n (r.1 - t0) ++ rest.1, List.replicate n r.2 ++ rest.2)

/-- `parseValues` (ade/examples/data.py:138-161): the vector `t` and the rows of `X`; `none` for an exception. -/
def parseValues (float : List Char → Option ℚ) (ranges : List Range) (rows : List (List (List Char))) :
    Option (List ℚ × List (List ℚ)) :=
  match rows.mapM (reading float) with
  | none => none
  | some l =>
    match sort l with
    | [] => none
    | r :: s => some (select ranges r.1 0 (r :: s))

end TimeData
end Ade
