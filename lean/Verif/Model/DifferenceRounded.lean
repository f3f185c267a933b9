import Verif.Model.Difference

/-!
# How close two history records are, in floating-point arithmetic

The difference of a pair of records (`ade/history.py`, `ClosestPairFinder.calcerator`) with rounded arithmetic;
`Verif/Model/Difference.lean` has it in exact arithmetic.

* `fl` is the rounding of the arithmetic, a parameter; the theorems ask for roundings to nearest with 53 bits.
* In `difference` the scaling of the columns and the penalty are given, as the numbers that the program has computed for them.
* `np.sum` may add the columns in any order, given by `Order`.
* Simplifications: no overflow and no underflow (as in `Verif/Model/Rounding.lean`).
-/

set_option autoImplicit false

namespace Ade
namespace DifferenceRounded

/-- An order in which `np.sum` may add the columns (ade/history.py:717). -/
inductive Order (n : ℕ) where
  | column (c : Fin (n + 1))
  | add (a b : Order n)

/-- `np.sum(D, axis=1)` for one row (ade/history.py:717). -/
def sum {n : ℕ} (fl : ℚ → ℚ) (f : Fin (n + 1) → ℚ) : Order n → ℚ
  | .column c => f c
  | .add a b => fl (sum fl f a + sum fl f b)

/-- One element of `D` before the sum: difference, square, scaling (ade/history.py:709-715). -/
def term {n : ℕ} (fl : ℚ → ℚ) (X : ℕ → Fin (n + 1) → ℚ) (S : Fin (n + 1) → ℚ) (p : ℕ × ℕ) (c : Fin (n + 1)) : ℚ :=
  let x := fl (X p.1 c - X p.2 c)
  let d := fl (x * x)
  fl (d * S c)

/-- The mean score of a pair of rows (ade/history.py:720-721). -/
def meanScore {n : ℕ} (fl : ℚ → ℚ) (X : ℕ → Fin (n + 1) → ℚ) (p : ℕ × ℕ) : ℚ := fl (fl (X p.1 0 + X p.2 0) / 2)

/-- Division of NumPy arrays, elementwise. -/
def divide (fl : ℚ → ℚ) (a b : ℚ) : PyFloat :=
  if b = 0 then (if a = 0 then .nan else if 0 < a then .pinf else .ninf) else .fin (fl (a / b))

/-- Division of a NumPy float by a positive number. -/
def divideBy (fl : ℚ → ℚ) : PyFloat → ℚ → PyFloat
  | .fin a, b => .fin (fl (a / b))
  | x, _ => x

/-- The difference `D` of a pair (ade/history.py:709-734); `penalty` is what `np.choose` takes when the first row of the pair was
never in the population. -/
def difference {n : ℕ} (fl : ℚ → ℚ) (o : Order n) (X : ℕ → Fin (n + 1) → ℚ) (S : Fin (n + 1) → ℚ) (Kn : Finset ℕ) (penalty : ℚ)
    (p : ℕ × ℕ) : PyFloat :=
  divideBy fl (divide fl (sum fl (term fl X S p) o) (meanScore fl X p)) (if p.1 ∈ Kn then penalty else 1)

/-- Sum of the rows of a column, one after the other. -/
def sumRows (fl : ℚ → ℚ) (l : List ℚ) : ℚ := l.foldl (fun s x => fl (s + x)) 0

/-- `np.mean` of a column. -/
def mean (fl : ℚ → ℚ) (l : List ℚ) : ℚ := fl (sumRows fl l / l.length)

/-- `np.var` of a column (ade/history.py:706): the mean of the squares of the differences from the mean. -/
def var (fl : ℚ → ℚ) (l : List ℚ) : ℚ :=
  let m := mean fl l
  mean fl (l.map fun x => fl (fl (x - m) * fl (x - m)))

/-- The scaling of the columns (ade/history.py:705-706); `l` is `list(self.K)`. -/
def scaling {n : ℕ} (fl : ℚ → ℚ) (X : ℕ → Fin (n + 1) → ℚ) (l : List ℕ) (c : Fin (n + 1)) : ℚ :=
  fl (1 / fl (var fl (l.map fun k => X k c) + fl (1 / 10 ^ 20)))

/-- The row chosen by a call of the finder (ade/history.py:671-739, 760-798) that computes the scaling; `pen` is the penalty for
the number of pairs examined. -/
def call {n : ℕ} (fl : ℚ → ℚ) (o : Order n) (X : ℕ → Fin (n + 1) → ℚ) (Kn : Finset ℕ) (l : List ℕ) (Np : ℕ)
    (rounds : List (List (ℕ × ℕ))) (pen : ℕ → ℚ) : Option ℕ :=
  ClosestPair.call l Np rounds
    (difference fl o X (scaling fl X l) Kn (pen (ClosestPair.examined l Np rounds).length))

end DifferenceRounded
end Ade
