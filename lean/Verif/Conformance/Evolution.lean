import Verif.Model.Challenge
import Verif.Model.FManager
import Verif.Model.Locks
import Verif.Model.Population
import Verif.Model.Replacement

/-!
# Tests of `ade/test/test_population.py` and `ade/test/test_de.py`, on the model

These are tests of the model, not proofs: every example repeats a test of the repository with the same
inputs and the results expected there. They count for no property. Tests that only run the optimizer with random numbers, or measure
time, are left out.
-/

set_option autoImplicit false

namespace Ade

namespace ParamManager
namespace Conformance

/-- test_population.py:56-57, `unitySumList`. -/
def unitySum (d : Dict) : Bool := (d "a").getD 0 + (d "b").getD 0 = 1

/-- test_population.py:59-60, `proportionalDict`. -/
def proportional (d : Dict) : Bool := (d "a").getD 0 = 2 * (d "b").getD 0

/-- test_population.py:62-64, `test_call_no_constraints`. -/
example : passesConstraints ["a", "b"] [] [0, 0] = true ∧
    passesConstraints ["a", "b"] [] [10 ^ 20, 10 ^ 20] = true := by decide +kernel

/-- test_population.py:66-69, `test_call`. -/
example : passesConstraints ["a", "b"] [unitySum] [4 / 10, 6 / 10] = true ∧
    passesConstraints ["a", "b"] [unitySum] [5 / 10, 6 / 10] = false := by decide +kernel

/-- test_population.py:71-74, `test_call_with_names`. -/
example : passesConstraints ["a", "b"] [proportional] [3, 15 / 10] = true ∧
    passesConstraints ["a", "b"] [proportional] [4, 15 / 10] = false := by decide +kernel

/-- test_population.py:89-115, `test_limit_distribution`: numbers from 0 to 3 end up between 1 and 2. -/
example : ((List.range 301).all fun k =>
    decide (1 ≤ limit1 ⟨1, 2⟩ (k / 100)) && decide (limit1 ⟨1, 2⟩ (k / 100) ≤ 2)) = true := by decide +kernel

end Conformance
end ParamManager

namespace Replacement
namespace Conformance

/-- test_population.py:178-192, `test_keepStatusQuo`: never at 0, always at 1, half of the time in between. -/
example (u : ℝ) (h0 : 0 ≤ u) (h1 : u < 1) : keepStatusQuo 0 1 u = false ∧ keepStatusQuo 1 1 u = true ∧
    keepStatusQuo 0.5 1 u = decide (u < 0.5) ∧ keepStatusQuo 0 0.1 u = false ∧ keepStatusQuo 1 0.1 u = true ∧
    keepStatusQuo 0.1 0.1 u = true := by
  have hm : Real.sin (Real.pi * (0 - 0.5)) = -1 := by
    rw [show Real.pi * (0 - 0.5) = -(Real.pi / 2) by ring, Real.sin_neg, Real.sin_pi_div_two]
  have hp : Real.sin (Real.pi * (1 - 0.5)) = 1 := by
    rw [show Real.pi * (1 - 0.5) = Real.pi / 2 by ring, Real.sin_pi_div_two]
  have hz : Real.sin (Real.pi * (0.5 - 0.5)) = 0 := by simp
  refine ⟨?_, ?_, ?_, ?_, ?_, ?_⟩ <;> unfold keepStatusQuo
  · simp only [zero_div, hm]; norm_num; exact h0
  · simp only [div_one, hp]; norm_num; exact h1
  · simp only [div_one, hz]; norm_num
  · simp only [zero_div, hm]; norm_num; exact h0
  · norm_num
  · rw [show (0.1 : ℝ) / 0.1 = 1 by norm_num]; simp only [hp]; norm_num; exact h1

/-- A call with a rounded improvement ratio, or without any. -/
def told (rir : Option ℕ) : Call := ⟨rir, none, 0.5⟩

/-- test_population.py:194-220, `test_replacement`, for `2.0*Np/100 = 2`: true at first, with score zero, then false; two
ratios of 2 give the score 3, which is enough. -/
example : (replacement (new 2) (told none)).2 = some true ∧
    (replacement (new 2) (told none)).1.score = some 0 ∧
    (replacement (replacement (new 2) (told none)).1 (told none)).2 = some false ∧
    (run (replacement (new 2) (told none)).1 [told (some 2), told (some 2)]).score = some 3 ∧
    (replacement (run (replacement (new 2) (told none)).1 [told (some 2), told (some 2)]) (told none)).2 =
      some true := by
  have hm : Real.sin (Real.pi * (0 - 0.5)) = -1 := by
    rw [show Real.pi * (0 - 0.5) = -(Real.pi / 2) by ring, Real.sin_neg, Real.sin_pi_div_two]
  refine ⟨rfl, rfl, ?_, ?_, ?_⟩
  · simp only [replacement, Call.setsTarget, told, new, keepStatusQuo, zero_div, hm]
    norm_num
  · simp only [run, replacement, Call.setsTarget, told, new, List.foldl]
    norm_num
  · simp only [run, replacement, Call.setsTarget, told, new, List.foldl, keepStatusQuo]
    norm_num

end Conformance
end Replacement

namespace Population
namespace Conformance

/-- A population of individuals with the given scores. -/
def ofScores (l : List ℚ) : Pop := refill empty (l.zipIdx.map fun x => ⟨some (.fin x.1), [x.2]⟩)

/-- The new individual of `test_push`. -/
def newcomer : Individual := ⟨some (.fin 0), [123 / 100, 456 / 100]⟩

/-- test_population.py:223-231, `test_push`: the worst member is replaced. -/
example : (push stableSort (ofScores [7, 3, 9, 5]) newcomer).map Pop.members =
    some [⟨some (.fin 7), [0]⟩, ⟨some (.fin 3), [1]⟩, newcomer, ⟨some (.fin 5), [3]⟩] := by decide +kernel

/-- test_population.py:234-249, `test_push_and_best`: after pushing a new best one, it is the best. -/
example : (push stableSort (ofScores [7, 3, 9, 5]) newcomer).map (fun p => (best stableSort p).2) =
    some (some newcomer) := by decide +kernel

end Conformance
end Population

namespace Locks
namespace Conformance

/-- The locks of 100 members. -/
def hundred : State := ⟨100, fun _ => [], 0, true⟩

/-- test_population.py:252-263, `test_lock`: the second request waits until the first one is released. -/
example :
    let s1 := (lock hundred [4, 5]).1
    let s2 := (lock s1 [5]).1
    let s3 := (release s2 [4, 5]).1
    (lock hundred [4, 5]).2 = .requested [4, 5] ∧ fired s1 0 [4, 5] = true ∧
      (lock s1 [5]).2 = .requested [5] ∧ fired s2 1 [5] = false ∧ fired s3 1 [5] = true := by decide +kernel

end Conformance
end Locks

namespace FManager
namespace Conformance

/-- The constants, with 10 digits where they are not rational: for `CR = 0.5`, `Np = 100`. -/
def consts (crit : ℚ) : Consts ℚ :=
  ⟨89 / 100, 87 / 100, 89 / 100, 3, crit, 11079924324 / 10 ^ 10, 11303763374 / 10 ^ 10, 11079924324 / 10 ^ 10⟩

/-- The critical value for `CR = 0.5` and `Np = 100`. -/
def c50 : Consts ℚ := consts (866025404 / 10 ^ 10)

/-- The critical value for `CR = 0.9` and `Np = 100`. -/
def c90 : Consts ℚ := consts (741619849 / 10 ^ 10)

/-- test_de.py:47-49, `test_get_single`. -/
example : get (init c50 (.single (6 / 10)) true) (1 / 3) = 6 / 10 := by decide +kernel

/-- test_de.py:51-68, `test_get_variate`: strictly between the bounds for a random number that is not 0; below the bottom tenth
for a small one. -/
example : get (init c50 (.range (5 / 10) (9 / 10)) true) (1 / 2) = 7 / 10 ∧
    get (init c50 (.range (5 / 10) (9 / 10)) true) (9 / 100) < 5 / 10 + 1 / 10 * (9 / 10 - 5 / 10) := by
  decide +kernel

/-- test_de.py:70-87, `adjust`: requests until nothing changes; how many, and the result. -/
def adjust (op : Op) : ℕ → ℚ → FM ℚ → ℕ × FM ℚ
  | 0, _, m => (0, m)
  | fuel + 1, prev, m =>
    let m' := step c50 m op
    if get m' 0 = prev then (1, m')
    else
      let r := adjust op fuel (get m' 0) m'
      (r.1 + 1, r.2)

/-- The end of going down. -/
def bottom : ℕ × FM ℚ := adjust .down 50 1000 (init c50 (.single (6 / 10)) true)

/-- The end of going up again. -/
def top : ℕ × FM ℚ := adjust .up 50 1000 bottom.2

/-- test_de.py:89-100, `test_downUp_single`. -/
example : c50.crit < get bottom.2 0 ∧ get bottom.2 0 < 15 / 10 * c50.crit ∧ 15 < bottom.1 ∧ bottom.1 < 20 ∧
    get top.2 0 = 6 / 10 ∧ 15 < top.1 ∧ top.1 < 25 := by decide +kernel

/-- test_de.py:102-108, `test_F_reduced_if_adaptive`. -/
example : (run c90 (init c90 (.range (5 / 10) 1) true) (List.replicate 10 .down)).F =
    .range (5 / 10 * (89 / 100) ^ 10) 1 := by decide +kernel

/-- test_de.py:110-119, `test_F_reduced_until_limit`: the limit is reached between the 11th and the 500th request, with the lower
end near the critical value. -/
example :
    (run c90 (init c90 (.range (5 / 10) 1) true) (List.replicate 11 .down)).limited = false ∧
    (run c90 (init c90 (.range (5 / 10) 1) true) (List.replicate 30 .down)).limited = true ∧
    |(run c90 (init c90 (.range (5 / 10) 1) true) (List.replicate 30 .down)).F.lowest - c90.crit| < 5 / 1000 := by
  decide +kernel

/-- test_de.py:121-128, `test_F_increased_if_adaptive`: down ten times, up a hundred times. -/
example : (run c90 (init c90 (.range (1 / 10) 1) true)
      (List.replicate 10 .down ++ List.replicate 100 .up)).F = .range (1 / 10) 1 := by decide +kernel

/-- test_de.py:130-134, `test_F_same_if_not_adaptive`. -/
example : (run c90 (init c90 (.range (5 / 10) 1) false) [.down]).F = .range (5 / 10) 1 := by decide +kernel

end Conformance
end FManager

namespace Challenge
namespace Conformance

/-- test_de.py:170-193, `test_crossover`: a parent of zeros and a mutant of ones.  With `CR` 0 at least one zero remains, with `CR` 1
none, for random numbers above 0 and up to 1. -/
example (u : ℕ → ℚ) (hu : ∀ k, 0 < u k ∧ u k ≤ 1) (j : ℕ) (hj : j < 4) (F : ℚ) :
    crossover 0 4 ⟨F, j, u⟩ [0, 0, 0, 0] [1, 1, 1, 1] ≠ [1, 1, 1, 1] ∧
    crossover 0 4 ⟨F, j, u⟩ [0, 0, 0, 0] [1, 1, 1, 1] ≠ [0, 0, 0, 0] ∧
    crossover 1 4 ⟨F, j, u⟩ [0, 0, 0, 0] [1, 1, 1, 1] = [1, 1, 1, 1] := by
  have h0 : ∀ k, 0 < u k := fun k => (hu k).1
  have h1 : ∀ k, ¬ 1 < u k := fun k => not_lt.2 (hu k).2
  rcases j with _ | _ | _ | _ | j
  all_goals first | omega | skip
  all_goals simp [crossover, crossoverWith, List.range_succ, h0, h1]

end Conformance
end Challenge

end Ade
