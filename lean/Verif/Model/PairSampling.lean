import Verif.Model.ClosestPair

/-!
# The random pairs of the closest-pair finder

Model of `ClosestPairFinder.pairs_sampled` (ade/history.py:637-656) in terms of a sequence of random pairs,
drawn in rounds.  `Verif.Model.ClosestPair` has the same function for given rounds.
-/

set_option autoImplicit false

namespace Ade
namespace PairSampling

/-- The number of pairs drawn in a round (ade/history.py:648-650) if `N` pairs are missing and there are
`Nr` ≥ 2 rows, in exact arithmetic: `int(2.1*Nr/(Nr-1) * N)`. -/
def roundSize (Nr N : Nat) : Nat := 21 * Nr * N / (10 * (Nr - 1))

/-- The rounds of `pairs_sampled` (ade/history.py:651-655), taken from the sequence `d` of random pairs that
`np.random.choice` yields; `size N` pairs are drawn if `N` are missing.  `none`: the sequence ends before the
sampling does. -/
def drawRounds (size : Nat → Nat) : Nat → Nat → List (Nat × Nat) → Option (List (List (Nat × Nat)))
  | 0, _, _ => none
  | fuel + 1, N, d =>
    if d.length < size N then none
    else
      let ps := ClosestPair.keepIncreasing N (d.take (size N))
      if ps.length < N then
        (drawRounds size fuel (N - ps.length) (d.drop (size N))).map (d.take (size N) :: ·)
      else some [d.take (size N)]

/-- The result of `pairs_sampled(N)` (ade/history.py:637-656) from the sequence `d` of random pairs. -/
def sampled (size : Nat → Nat) (N : Nat) (d : List (Nat × Nat)) : Option (List (Nat × Nat)) :=
  (drawRounds size (d.length + 1) N d).map (ClosestPair.pairsSampled N)

end PairSampling
end Ade
