import Verif.Model.ClosestPair
import Mathlib.Algebra.BigOperators.Fin
import Mathlib.Algebra.BigOperators.Group.List.Basic

/-!
# How close two history records are

Model of the computed differences of `ade/history.py`, class `ClosestPairFinder`: the rows themselves, the
cached scaling, and the difference of a pair that decides which record is evicted.  Column 0 of a row is
the score, the others are the parameter values.

Simplifications: numbers are exact rationals, so there is no rounding, overflow or underflow.  Division by
zero gives the NumPy values NaN and infinity.  The penalty `1 + exp(…)` for rows that never were in the
population is an arbitrary function `pen` of the two counts it depends on (see `penaltyStep` and C60 for the
exponent).  A call is one step: the steps between the `yield`s of `calcerator` do not interleave with other
calls because the history holds its lock meanwhile (C75), and `self.X[K1[:,0]]` is a copy, so that the
in-place arithmetic of `calcerator` does not touch the stored rows.
-/

set_option autoImplicit false

namespace Ade
namespace ClosestPair

/-- A finder with its data (ade/history.py:540-596): the rows `X`, the active rows `K`, those of them that
never were in the population, and the cached scaling `S`. -/
structure Store (n : Nat) where
  X : Nat → Fin (n + 1) → ℚ
  K : Finset Nat
  Kn : Finset Nat
  S : Option (Fin (n + 1) → ℚ)

/-- A new finder (ade/history.py:580-587).  `np.empty` leaves arbitrary values `X` in the rows. -/
def Store.new {n : Nat} (X : Nat → Fin (n + 1) → ℚ) : Store n := ⟨X, ∅, ∅, none⟩

/-- `clear` (ade/history.py:589-596). -/
def Store.clear {n : Nat} (f : Store n) : Store n := ⟨f.X, ∅, ∅, none⟩

/-- The finite value of a float. -/
def finiteOf : PyFloat → Option ℚ
  | .fin q => some q
  | _ => none

/-- `setRow` (ade/history.py:598-620); the second component tells if the `ValueError` for a value that is
not finite was raised. -/
def Store.setRow {n : Nat} (f : Store n) (k : Nat) (Z : Fin (n + 1) → PyFloat) (neverInPop : Bool) :
    Store n × Bool :=
  if ∀ c, (finiteOf (Z c)).isSome then
    (⟨fun j c => if j = k then (finiteOf (Z c)).getD 0 else f.X j c, insert k f.K,
      if neverInPop then insert k f.Kn else f.Kn, none⟩, false)
  else (f, true)

/-- `clearRow` (ade/history.py:622-635). -/
def Store.clearRow {n : Nat} (f : Store n) (k : Nat) : Store n :=
  if k ∈ f.K then ⟨f.X, f.K.erase k, f.Kn.erase k, none⟩ else f

/-- `np.mean` of a column. -/
def mean (l : List ℚ) : ℚ := l.sum / l.length

/-- `np.var` of a column (ade/history.py:706). -/
def var (l : List ℚ) : ℚ := mean (l.map fun x => (x - mean l) ^ 2)

/-- The `1E-20` added to each variance (ade/history.py:706). -/
def eps : ℚ := 1 / 10 ^ 20

/-- The scaling of the columns (ade/history.py:705-706); `l` is `list(self.K)`. -/
def scaling {n : Nat} (X : Nat → Fin (n + 1) → ℚ) (l : List Nat) : Fin (n + 1) → ℚ := fun c =>
  1 / (var (l.map fun k => X k c) + eps)

/-- The scaled sum of squares for a pair of rows (ade/history.py:709-717). -/
def sumSquares {n : Nat} (X : Nat → Fin (n + 1) → ℚ) (S : Fin (n + 1) → ℚ) (p : Nat × Nat) : ℚ :=
  ∑ c, (X p.1 c - X p.2 c) ^ 2 * S c

/-- The mean score of a pair of rows (ade/history.py:720-721). -/
def meanScore {n : Nat} (X : Nat → Fin (n + 1) → ℚ) (p : Nat × Nat) : ℚ := mean [X p.1 0, X p.2 0]

/-- Division of NumPy arrays, elementwise. -/
def divide (a b : ℚ) : PyFloat :=
  if b = 0 then (if a = 0 then .nan else if 0 < a then .pinf else .ninf) else .fin (a / b)

/-- Division of a NumPy float by a positive number. -/
def divideBy : PyFloat → ℚ → PyFloat
  | .fin a, b => .fin (a / b)
  | x, _ => x

/-- The difference `D` of a pair (ade/history.py:709-734); `penalty` is what `np.choose` takes when the
first row of the pair was never in the population. -/
def difference {n : Nat} (X : Nat → Fin (n + 1) → ℚ) (S : Fin (n + 1) → ℚ) (Kn : Finset Nat) (penalty : ℚ)
    (p : Nat × Nat) : PyFloat :=
  divideBy (divide (sumSquares X S p) (meanScore X p)) (if p.1 ∈ Kn then penalty else 1)

/-- The pairs that are examined (ade/history.py:694-698). -/
def examined (l : List Nat) (Np : Nat) (rounds : List (List (Nat × Nat))) : List (Nat × Nat) :=
  if l.length * (l.length - 1) / 2 < Np then pairsAll l else pairsSampled Np rounds

/-- The scaling used by a call: the cached one, or else a new one (ade/history.py:702-706). -/
def Store.scale {n : Nat} (f : Store n) (l : List Nat) : Fin (n + 1) → ℚ := f.S.getD (scaling f.X l)

/-- A call of the finder (ade/history.py:760-798 and 671-739): the chosen row, `none` for an exception, and
the state afterwards.  `l` is `list(self.K)`. -/
def Store.call {n : Nat} (f : Store n) (l : List Nat) (Np : Nat) (rounds : List (List (Nat × Nat)))
    (pen : Nat → Nat → ℚ) : Option Nat × Store n :=
  (ClosestPair.call l Np rounds
    (difference f.X (f.scale l) f.Kn (pen f.Kn.card (examined l Np rounds).length)),
    if l.length = 1 then f else { f with S := some (f.scale l) })

/-- What can happen to a finder. -/
inductive StoreOp (n : Nat) where
  | clear
  | setRow (k : Nat) (Z : Fin (n + 1) → PyFloat) (neverInPop : Bool)
  | clearRow (k : Nat)
  | call (l : List Nat) (Np : Nat) (rounds : List (List (Nat × Nat))) (pen : Nat → Nat → ℚ)

/-- The effect of an operation on the finder. -/
def Store.apply {n : Nat} (f : Store n) : StoreOp n → Store n
  | .clear => f.clear
  | .setRow k Z b => (f.setRow k Z b).1
  | .clearRow k => f.clearRow k
  | .call l Np rounds pen => (f.call l Np rounds pen).2

end ClosestPair
end Ade
