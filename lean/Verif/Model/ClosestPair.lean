import Verif.Model.PyFloat
import Mathlib.Data.Finset.Card
import Mathlib.Data.Finset.Dedup

/-!
# Choosing the most expendable history record

Model of `ade/history.py`, class `ClosestPairFinder`.  The differences between rows are an arbitrary
function into floats (every value, including NaN and infinities, is allowed), so the theorems hold for
all data; only which rows are considered and how one of them is chosen is modelled.
-/

set_option autoImplicit false

namespace Ade
namespace ClosestPair

/-- The bookkeeping of a `ClosestPairFinder` (ade/history.py:540-596): the active rows `K` and those
of them that have never been in the population, `Kn`.  The array `X` and the cached scaling `S` only
influence the differences. -/
structure Finder where
  K : Finset Nat
  Kn : Finset Nat

/-- `clear` (ade/history.py:589-596), also the constructor's state. -/
def Finder.empty : Finder := ⟨∅, ∅⟩

/-- `setRow` (ade/history.py:598-620); `finite` tells if all entries of the row are finite, `none` is
the `ValueError`. -/
def Finder.setRow (c : Finder) (k : Nat) (finite : Bool) (neverInPop : Bool) : Option Finder :=
  if finite then
    some ⟨insert k c.K, if neverInPop then insert k c.Kn else c.Kn⟩
  else none

/-- `clearRow` (ade/history.py:622-635). -/
def Finder.clearRow (c : Finder) (k : Nat) : Finder :=
  if k ∈ c.K then ⟨c.K.erase k, c.Kn.erase k⟩ else c

/-- `pairs_all` (ade/history.py:658-669).  `l` is `list(self.K)`: the rows in the iteration order of
the set. -/
def pairsAll (l : List Nat) : List (Nat × Nat) :=
  (l.flatMap fun a => l.map fun b => (a, b)).filter fun p => decide (p.1 < p.2)

/-- One round of `pairs_sampled` (ade/history.py:651-652): of the random pairs `draws`, the first `N`
that are increasing. -/
def keepIncreasing (N : Nat) (draws : List (Nat × Nat)) : List (Nat × Nat) :=
  (draws.filter fun p => decide (p.1 < p.2)).take N

/-- `pairs_sampled` (ade/history.py:637-656): rounds of random draws until there are `N` increasing
pairs; `rounds` are the draws of each round, the recursion stops when nothing is missing.  (It is
entered with `N` ≥ 1.) -/
def pairsSampled : Nat → List (List (Nat × Nat)) → List (Nat × Nat)
  | _, [] => []
  | N, r :: rs =>
    let ps := keepIncreasing N r
    if ps.length < N then ps ++ pairsSampled (N - ps.length) rs else ps

/-- `np.argmin(D)` on the differences, as the position of the result: the first NaN if there is one,
else the first smallest value; `none` is the `ValueError` for an empty array. -/
def argmin : List PyFloat → Option Nat
  | [] => none
  | d :: ds =>
    match argmin ds with
    | none => some 0
    | some j =>
      match ds[j]? with
      | none => some 0
      | some e => if d.isNaN then some 0 else if e.isNaN || e.lt d then some (j + 1) else some 0

/-- The final choice of `calcerator` (ade/history.py:736-738): the first row of the pair with the
smallest difference. -/
def pickFirst (D : Nat × Nat → PyFloat) (ps : List (Nat × Nat)) : Option Nat :=
  match argmin (ps.map D) with
  | none => none
  | some j => (ps[j]?).map Prod.fst

/-- `__call__` (ade/history.py:760-798) with `calcerator` (671-739).  `l` lists the active rows, `Np` is
the limit on the number of pairs, `rounds` the random draws, `D` the computed differences.  `none` is the
`ValueError` raised when there is no row at all (the documentation promises `None` instead).  The test
`Nr*(Nr-1)/2 < Np` is on exact numbers. -/
def call (l : List Nat) (Np : Nat) (rounds : List (List (Nat × Nat))) (D : Nat × Nat → PyFloat) :
    Option Nat :=
  match l with
  | [k] => some k
  | _ =>
    let ps := if l.length * (l.length - 1) / 2 < Np then pairsAll l else pairsSampled Np rounds
    pickFirst D ps

/-- The multiplicative penalty exponent of `calcerator` (ade/history.py:731-733): the floor of the number
of never-in-population rows over the number of pairs examined; the penalty is
`1 + exp(12*(floorRatio - 0.4))`. -/
def penaltyStep (nNever nPairs : Nat) : Nat := nNever / nPairs

end ClosestPair
end Ade
