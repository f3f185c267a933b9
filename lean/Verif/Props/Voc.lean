import Verif.Model.Voc
import Mathlib.Analysis.SpecialFunctions.Exp
import Mathlib.Tactic.Linarith
import Mathlib.Tactic.Positivity
import Mathlib.Tactic.FieldSimp
import Mathlib.Tactic.NormNum
import Mathlib.Tactic.LinearCombination

/-!
# Properties C96 and C97: the battery voltage example, the Goldstein-Price function
-/

set_option autoImplicit false

namespace Ade
namespace Voc

/-- The names of the parameters as the example passes them to the population. -/
theorem names_eq : names = ["a1", "a2", "a3", "b1", "b2", "b3", "c1", "c2", "c3", "voc"].map String.toList := by
  decide +kernel

/-- The value of a named parameter. -/
def value (values : List ℝ) (name : String) : ℝ := values.getD (names.idxOf name.toList) 0

/-- The curve that the documentation gives: `V = a1*exp(-t/b1+c1) + ... + voc`. -/
noncomputable def documented (t : ℝ) (p : String → ℝ) : ℝ :=
  p "a1" * Real.exp (-t / p "b1" + p "c1") + p "a2" * Real.exp (-t / p "b2" + p "c2") +
    p "a3" * Real.exp (-t / p "b3" + p "c3") + p "voc"

/-- The curve that the loop computes if its arguments are `a1, b1, c1, a2, ...`. -/
noncomputable def intended (t : ℝ) (p : String → ℝ) : ℝ :=
  p "a1" * Real.exp (-(t + p "c1") / p "b1") + p "a2" * Real.exp (-(t + p "c2") / p "b2") +
    p "a3" * Real.exp (-(t + p "c3") / p "b3") + p "voc"

/-- C96, negation: the parameters are passed in the order of their names, but the curve takes them in threes: the first
term uses `a1` as amplitude, `a2` as time constant and `a3` as offset, the second `b1`, `b2`, `b3`, and so on. -/
theorem C96_mixed_parameters (values : List ℝ) (hl : values.length = 10) (t : ℝ) :
    curve t values =
      value values "a1" * Real.exp (-(t + value values "a3") / value values "a2") +
      value values "b1" * Real.exp (-(t + value values "b3") / value values "b2") +
      value values "c1" * Real.exp (-(t + value values "c3") / value values "c2") + value values "voc" := by
  obtain ⟨v0, v1, v2, v3, v4, v5, v6, v7, v8, v9, rfl⟩ : ∃ v0 v1 v2 v3 v4 v5 v6 v7 v8 v9,
      values = [v0, v1, v2, v3, v4, v5, v6, v7, v8, v9] := by
    match values, hl with
    | [v0, v1, v2, v3, v4, v5, v6, v7, v8, v9], _ => exact ⟨_, _, _, _, _, _, _, _, _, _, rfl⟩
  have h : ∀ (s : String) (i : ℕ), names.idxOf s.toList = i →
      value [v0, v1, v2, v3, v4, v5, v6, v7, v8, v9] s = [v0, v1, v2, v3, v4, v5, v6, v7, v8, v9].getD i 0 := by
    intro s i h; unfold value; rw [h]
  rw [h "a1" 0 (by decide +kernel), h "a2" 1 (by decide +kernel), h "a3" 2 (by decide +kernel),
    h "b1" 3 (by decide +kernel), h "b2" 4 (by decide +kernel), h "b3" 5 (by decide +kernel),
    h "c1" 6 (by decide +kernel), h "c2" 7 (by decide +kernel), h "c3" 8 (by decide +kernel),
    h "voc" 9 (by decide +kernel)]
  simp only [curve, term, List.range_succ, List.range_zero, List.foldl_append, List.foldl_cons, List.foldl_nil]
  simp
  ring

/-- Values within the bounds of the example. -/
def WithinBounds (values : List ℝ) : Prop :=
  List.Forall₂ (fun (b : ℚ × ℚ) (v : ℝ) => (b.1 : ℝ) ≤ v ∧ v ≤ b.2) bounds values

/-- Values for which the model of the battery is a constant voltage, since all amplitudes are zero. -/
def flat : List ℝ := [0, 0, 0, 1, 1200, 3600, 1, 50, 100, 50]

theorem flat_within : WithinBounds flat := by
  have hb : bounds = [(0, 40), (0, 600), (0, 800), (1, 600), (1200, 7200), (3600, 43200), (1, 200), (50, 1000),
      (100, 4000), (45, 54)] := by decide +kernel
  unfold WithinBounds flat
  rw [hb]
  repeat' constructor
  all_goals norm_num

/-- C96, negation: for some values within the bounds the curve is neither the documented nor the intended one, at any
time. -/
theorem C96_not_documented : ∃ values, WithinBounds values ∧ ∀ t,
    documented t (value values) < curve t values ∧ intended t (value values) < curve t values := by
  refine ⟨flat, flat_within, fun t => ?_⟩
  rw [C96_mixed_parameters flat rfl]
  have h : ∀ (s : String) (i : ℕ), names.idxOf s.toList = i → value flat s = flat.getD i 0 := by
    intro s i h; unfold value; rw [h]
  unfold documented intended
  rw [h "a1" 0 (by decide +kernel), h "a2" 1 (by decide +kernel), h "a3" 2 (by decide +kernel),
    h "b1" 3 (by decide +kernel), h "b2" 4 (by decide +kernel), h "b3" 5 (by decide +kernel),
    h "c1" 6 (by decide +kernel), h "c2" 7 (by decide +kernel), h "c3" 8 (by decide +kernel),
    h "voc" 9 (by decide +kernel)]
  simp only [flat, List.getD_eq_getElem?_getD, List.getElem?_cons_zero, List.getElem?_cons_succ, Option.getD_some]
  have e1 := Real.exp_pos (-(t + 3600) / 1200)
  have e2 := Real.exp_pos (-(t + 100) / 50)
  constructor <;> · ring_nf; ring_nf at e1 e2; linarith

/-- C96, what holds: if `a2` is not zero, the curve falls with time and stays above the value of `voc`, which it comes
arbitrarily close to. -/
theorem C96_curve_partial (values : List ℝ) (hv : WithinBounds values) (ha : 0 < value values "a2") :
    (∀ t, value values "voc" < curve t values) ∧ (∀ t t', t < t' → curve t' values < curve t values) ∧
      ∀ ε > 0, ∃ t₀, ∀ t, t₀ ≤ t → curve t values < value values "voc" + ε := by
  have hb : bounds = [(0, 40), (0, 600), (0, 800), (1, 600), (1200, 7200), (3600, 43200), (1, 200), (50, 1000),
      (100, 4000), (45, 54)] := by decide +kernel
  have hl : values.length = 10 := by rw [← hv.length_eq, hb]; rfl
  have hge : ∀ (s : String) (i : ℕ) (b : ℚ), names.idxOf s.toList = i → (bounds[i]?.map Prod.fst) = some b →
      (b : ℝ) ≤ value values s := by
    intro s i b hi hbi
    obtain ⟨p, hp, rfl⟩ := Option.map_eq_some_iff.1 hbi
    obtain ⟨h1, h2⟩ := List.getElem?_eq_some_iff.1 hp
    have := List.forall₂_iff_get.1 hv |>.2 i h1 (by rw [← hv.length_eq]; exact h1)
    unfold value
    rw [hi, List.getD_eq_getElem?_getD, List.getElem?_eq_getElem (by rw [← hv.length_eq]; exact h1)]
    simp only [List.get_eq_getElem, h2] at this
    exact this.1
  have a1 := hge "a1" 0 0 (by decide +kernel) (by decide +kernel)
  have b1 := hge "b1" 3 1 (by decide +kernel) (by decide +kernel)
  have b2 := hge "b2" 4 1200 (by decide +kernel) (by decide +kernel)
  have c1 := hge "c1" 6 1 (by decide +kernel) (by decide +kernel)
  have c2 := hge "c2" 7 50 (by decide +kernel) (by decide +kernel)
  simp only [C96_mixed_parameters values hl]
  generalize value values "a1" = A at *
  generalize value values "a2" = A2 at *
  generalize value values "a3" = A3 at *
  generalize value values "b1" = B at *
  generalize value values "b2" = B2 at *
  generalize value values "b3" = B3 at *
  generalize value values "c1" = C at *
  generalize value values "c2" = C2 at *
  generalize value values "c3" = C3 at *
  generalize value values "voc" = V at *
  norm_num at a1 b1 b2 c1 c2
  have hB2 : 0 < B2 := by linarith
  have hC2 : 0 < C2 := by linarith
  have anti : ∀ (q o t t' : ℝ), 0 < q → t < t' → Real.exp (-(t' + o) / q) < Real.exp (-(t + o) / q) := by
    intro q o t t' hq ht
    apply Real.exp_lt_exp.2
    apply div_lt_div_of_pos_right _ hq
    linarith
  have small : ∀ (a q o ε : ℝ), 0 ≤ a → 0 < q → 0 < ε → ∃ t₀, ∀ t, t₀ ≤ t → a * Real.exp (-(t + o) / q) < ε := by
    intro a q o ε h0 hq hε
    refine ⟨q * (a / ε) - o, fun t ht => ?_⟩
    have h1 : a / ε ≤ (t + o) / q := by
      rw [le_div_iff₀ hq]; linarith [mul_comm q (a / ε)]
    have h2 : a / ε < Real.exp ((t + o) / q) := lt_of_le_of_lt h1 (by linarith [Real.add_one_le_exp ((t + o) / q)])
    have h3 : Real.exp (-(t + o) / q) = (Real.exp ((t + o) / q))⁻¹ := by rw [neg_div, Real.exp_neg]
    rw [h3, ← div_eq_mul_inv, div_lt_iff₀ (Real.exp_pos _)]
    rw [div_lt_iff₀ hε] at h2
    linarith [mul_comm (Real.exp ((t + o) / q)) ε]
  refine ⟨fun t => ?_, fun t t' ht => ?_, fun ε hε => ?_⟩
  · have e1 := mul_nonneg a1 (Real.exp_pos (-(t + A3) / A2)).le
    have e2 := mul_pos (show 0 < B by linarith) (Real.exp_pos (-(t + B3) / B2))
    have e3 := mul_pos (show 0 < C by linarith) (Real.exp_pos (-(t + C3) / C2))
    linarith
  · have e1 := mul_le_mul_of_nonneg_left (anti A2 A3 t t' ha ht).le a1
    have e2 := mul_lt_mul_of_pos_left (anti B2 B3 t t' hB2 ht) (show 0 < B by linarith)
    have e3 := mul_lt_mul_of_pos_left (anti C2 C3 t t' hC2 ht) (show 0 < C by linarith)
    linarith
  · obtain ⟨t1, h1⟩ := small A A2 A3 (ε / 3) a1 ha (by linarith)
    obtain ⟨t2, h2⟩ := small B B2 B3 (ε / 3) (by linarith) hB2 (by linarith)
    obtain ⟨t3, h3⟩ := small C C2 C3 (ε / 3) (by linarith) hC2 (by linarith)
    refine ⟨max t1 (max t2 t3), fun t ht => ?_⟩
    have := h1 t (le_trans (le_max_left _ _) ht)
    have := h2 t (le_trans (le_trans (le_max_left _ _) (le_max_right _ _)) ht)
    have := h3 t (le_trans (le_trans (le_max_right _ _) (le_max_right _ _)) ht)
    linarith

/-- C96: every reading adds a hundred times the square of its distance from the curve to the score. -/
theorem C96_score_adds (rows : List (ℝ × ℝ)) (r : ℝ × ℝ) (values : List ℝ) :
    score [] values = 0 ∧ score (r :: rows) values = score rows values + 100 * (curve r.1 values - r.2) ^ 2 := by
  unfold score
  refine ⟨by simp, ?_⟩
  rw [List.map_cons, List.sum_cons]
  ring

/-- C96, what holds: the score is never negative and it is zero exactly if the curve goes through all readings. -/
theorem C96_score_partial (rows : List (ℝ × ℝ)) (values : List ℝ) :
    0 ≤ score rows values ∧ (score rows values = 0 ↔ ∀ r ∈ rows, curve r.1 values = r.2) := by
  unfold score
  induction rows with
  | nil => simp
  | cons r rows ih =>
    rw [List.map_cons, List.sum_cons, List.forall_mem_cons]
    have h := sq_nonneg (curve r.1 values - r.2)
    obtain ⟨h1, h2⟩ := ih
    refine ⟨by linarith, ?_⟩
    rw [← h2]
    constructor
    · intro h3
      have h4 : (curve r.1 values - r.2) ^ 2 = 0 := by linarith
      exact ⟨by have := pow_eq_zero_iff (two_ne_zero) |>.1 h4; linarith, by linarith⟩
    · rintro ⟨h3, h4⟩
      rw [h3]; linarith [show (r.2 - r.2) ^ 2 = (0 : ℝ) by ring]

/-- Non-vacuity of C96_curve_partial. -/
theorem demo_within : WithinBounds [0, 1, 0, 1, 1200, 3600, 1, 50, 100, 50] ∧
    0 < value [0, 1, 0, 1, 1200, 3600, 1, 50, 100, 50] "a2" := by
  have hb : bounds = [(0, 40), (0, 600), (0, 800), (1, 600), (1200, 7200), (3600, 43200), (1, 200), (50, 1000),
      (100, 4000), (45, 54)] := by decide +kernel
  constructor
  · unfold WithinBounds
    rw [hb]
    repeat' constructor
    all_goals norm_num
  · unfold value
    rw [show names.idxOf "a2".toList = 1 by decide +kernel]
    norm_num

example := C96_mixed_parameters [0, 1, 0, 1, 1200, 3600, 1, 50, 100, 50] rfl 10

example := C96_curve_partial _ demo_within.1 demo_within.2

example := C96_score_adds [(0, 12)] (60, 13) [0, 1, 0, 1, 1200, 3600, 1, 50, 100, 50]

end Voc

namespace GoldsteinPrice

variable {K : Type} [Field K] [LinearOrder K] [IsStrictOrderedRing K]

/-- C97: the function that the example minimizes is never below 3, and it is 3 only at (0, -1), which is within the bounds
of the example. -/
theorem C97_minimum (x y : K) : 3 ≤ gp x y ∧ (gp x y = 3 ↔ x = 0 ∧ y = -1) := by
  have hA : gp x y = (1 + (x + y + 1) ^ 2 * (3 * (x + y) ^ 2 - 14 * (x + y) + 19)) *
      (3 + (2 * x - 3 * y - 3) ^ 2 * (3 * (2 * x - 3 * y) ^ 2 + 2 * (2 * x - 3 * y) + 3)) := by
    unfold gp; ring
  have p1 : 0 < 3 * (x + y) ^ 2 - 14 * (x + y) + 19 := by nlinarith [sq_nonneg (3 * (x + y) - 7)]
  have p2 : 0 < 3 * (2 * x - 3 * y) ^ 2 + 2 * (2 * x - 3 * y) + 3 := by nlinarith [sq_nonneg (3 * (2 * x - 3 * y) + 1)]
  have q1 : 0 ≤ (x + y + 1) ^ 2 * (3 * (x + y) ^ 2 - 14 * (x + y) + 19) := by positivity
  have q2 : 0 ≤ (2 * x - 3 * y - 3) ^ 2 * (3 * (2 * x - 3 * y) ^ 2 + 2 * (2 * x - 3 * y) + 3) := by positivity
  rw [hA]
  refine ⟨by nlinarith [mul_nonneg q1 q2], ?_, ?_⟩
  · intro h
    have h12 := mul_nonneg q1 q2
    have h1 : (x + y + 1) ^ 2 * (3 * (x + y) ^ 2 - 14 * (x + y) + 19) = 0 := by nlinarith
    have h2 : (2 * x - 3 * y - 3) ^ 2 * (3 * (2 * x - 3 * y) ^ 2 + 2 * (2 * x - 3 * y) + 3) = 0 := by nlinarith
    have e1 : x + y + 1 = 0 := by
      rcases mul_eq_zero.1 h1 with h | h
      · exact pow_eq_zero_iff two_ne_zero |>.1 h
      · exact absurd h p1.ne'
    have e2 : 2 * x - 3 * y - 3 = 0 := by
      rcases mul_eq_zero.1 h2 with h | h
      · exact pow_eq_zero_iff two_ne_zero |>.1 h
      · exact absurd h p2.ne'
    constructor <;> linarith
  · rintro ⟨rfl, rfl⟩
    norm_num

/-- C97: the minimum is within the bounds. -/
theorem C97_within_bounds : List.Forall₂ (fun (b : ℚ × ℚ) v => b.1 < v ∧ v < b.2) bounds [0, -1] := by
  unfold bounds
  repeat' constructor

/-- Values of the function, also at a local minimum. -/
example : gp (0 : ℚ) (-1) = 3 ∧ gp (-3 / 5 : ℚ) (-2 / 5) = 30 ∧ gp (1 : ℚ) 1 = 1876 := by decide +kernel

example := C97_minimum (1 : ℚ) 1

end GoldsteinPrice
end Ade
