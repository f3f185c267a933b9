import Verif.Model.Figures

/-!
# Correlation coefficients

Model of `Analysis.corr` (ade/history.py:111-119) and, for coefficients that may be NaN, of `correlator` and the selection of
`plotCorrelated` without a name (ade/history.py:121-141, 517-537).

External contracts: `np.corrcoef` of two rows is the covariance divided by the square root of the product of the
variances, and NaN if a variance is zero or there is at most one record.  To stay with rational numbers, the coefficient `r` is
given by `r * |r|` (see `C126_coefficient`); absolute values are ordered in the same way as their squares.  `list.sort` with
fewer than 64 items is that of CPython: the longest run at the beginning is taken, then the other items are inserted by binary
search; with `reverse=True` the list is reversed before and after.
-/

set_option autoImplicit false

namespace Ade
namespace Correlation

/-- `n` times the sum of `f * g`, less the product of the sums: the covariance, up to a factor that only depends on `n`. -/
def cov {α : Type} (f g : α → ℚ) (rs : List α) : ℚ :=
  rs.length * (rs.map fun r => f r * g r).sum - (rs.map f).sum * (rs.map g).sum

/-- `corr` (ade/history.py:111-119), for the records `rs` with values `f` and `g`: the coefficient times its absolute value;
`none` for NaN. -/
def corr {α : Type} (f g : α → ℚ) (rs : List α) : Option ℚ :=
  if cov f f rs = 0 ∨ cov g g rs = 0 then none
  else some (cov f g rs * |cov f g rs| / (cov f f rs * cov g g rs))

/-- `a < b` of two floats that may be NaN. -/
def lt : Option ℚ → Option ℚ → Bool
  | some a, some b => decide (a < b)
  | _, _ => false

/-- `abs(row[2])` (ade/history.py:139). -/
def key {α : Type} (p : α × Option ℚ) : Option ℚ := p.2.map abs

/-- The items after `x` as long as none is less than the one before it: `count_run`, ascending. -/
def runUp {α : Type} (x : α × Option ℚ) : List (α × Option ℚ) → List (α × Option ℚ) × List (α × Option ℚ)
  | [] => ([], [])
  | y :: ys => if lt (key y) (key x) then ([], y :: ys) else ((y :: (runUp y ys).1), (runUp y ys).2)

/-- The items after `x` as long as each is less than the one before it: `count_run`, descending. -/
def runDown {α : Type} (x : α × Option ℚ) : List (α × Option ℚ) → List (α × Option ℚ) × List (α × Option ℚ)
  | [] => ([], [])
  | y :: ys => if lt (key y) (key x) then ((y :: (runDown y ys).1), (runDown y ys).2) else ([], y :: ys)

/-- The run at the beginning, in ascending order, and the rest. -/
def firstRun {α : Type} : List (α × Option ℚ) → List (α × Option ℚ) × List (α × Option ℚ)
  | [] => ([], [])
  | [x] => ([x], [])
  | x :: y :: ys =>
    if lt (key y) (key x) then ((x :: (runDown x (y :: ys)).1).reverse, (runDown x (y :: ys)).2)
    else (x :: (runUp x (y :: ys)).1, (runUp x (y :: ys)).2)

/-- The place for `x` between `l` and `r`: `binarysort`.  The fuel is the width of the interval. -/
def place {α : Type} (x : α × Option ℚ) (a : List (α × Option ℚ)) : ℕ → ℕ → ℕ → ℕ
  | 0, l, _ => l
  | fuel + 1, l, r =>
    if l < r then
      let p := (l + r) / 2
      match a[p]? with
      | none => l -- not reached
      | some y => if lt (key x) (key y) then place x a fuel l p else place x a fuel (p + 1) r
    else l

/-- `binarysort`: one item after the other is inserted. -/
def insertAll {α : Type} : List (α × Option ℚ) → List (α × Option ℚ) → List (α × Option ℚ)
  | a, [] => a
  | a, x :: xs => insertAll (a.insertIdx (place x a a.length 0 a.length) x) xs

/-- `kkR.sort(key=lambda row: abs(row[2]), reverse=True)` (ade/history.py:139), for fewer than 64 items. -/
def sort {α : Type} (l : List (α × Option ℚ)) : List (α × Option ℚ) :=
  (insertAll (firstRun l.reverse).1 (firstRun l.reverse).2).reverse

/-- The pairs of columns with their coefficients (ade/history.py:133-138), for `np` parameters. -/
def pairs (np : ℕ) (R : ℕ → ℕ → Option ℚ) : List ((ℕ × ℕ) × Option ℚ) :=
  (List.range' 1 np).flatMap fun k1 => ((List.range' 1 np).filter fun k2 => k1 < k2).map fun k2 => ((k1, k2), R k1 k2)

/-- The pairs that `plotCorrelated` shows without a name (ade/history.py:517-535), for records given by their columns. -/
def shown {α : Type} (np : ℕ) (col : ℕ → α → ℚ) (rs : List α) (N : ℕ) : List ((ℕ × ℕ) × Option ℚ) :=
  (sort (pairs np fun k1 k2 => corr (col k1) (col k2) rs)).take N

end Correlation
end Ade
