import Verif.Model.PyFloat
import Mathlib.Data.List.Basic

/-!
# Specification: rankings of scores

What a list of indices must satisfy to be a ranking (best first) of a list of scores.
-/

set_option autoImplicit false

namespace Ade

/-- `x` may come before `y`: a NaN comes last, otherwise `y` is not better. -/
def RanksBefore (x y : PyFloat) : Prop := y.isNaN = true ∨ (x.isNaN = false ∧ y.lt x = false)

/-- Each index once, in order of score. -/
structure IsRanking (scores : List PyFloat) (ks : List ℕ) : Prop where
  perm : ks.Perm (List.range scores.length)
  order : ks.Pairwise fun a b => RanksBefore (scores.getD a .nan) (scores.getD b .nan)

/-- A correct sorting function (contract of `np.argsort`). -/
def Sorts (sort : List PyFloat → List ℕ) : Prop := ∀ xs, IsRanking xs (sort xs)

end Ade
