import Verif.Model.Replacement
import Mathlib.Tactic.Linarith
import Mathlib.Tactic.NormNum

/-!
# Property C20: the status-quo decision follows the replacement score
-/

set_option autoImplicit false

namespace Ade
namespace Replacement

/-! ## Specification -/

/-- What a reported replacement with the given rounded improvement ratio is worth. -/
noncomputable def weight (rir : ℕ) : ℝ := if rir = 0 then 1 / 10 else rir - 1 / 2

/-- A call that reports a replacement. -/
def report (n : ℕ) (u : ℝ) : Call := ⟨some n, none, u⟩

/-- A call that inquires. -/
def inquiry (u : ℝ) : Call := ⟨none, none, u⟩

/-- A call that sets the target score. -/
def setTarget (q u : ℝ) : Call := ⟨none, some q, u⟩

/-! ## Score -/

theorem run_append (s : St) (a b : List Call) : run s (a ++ b) = run (run s a) b := by
  simp [run, List.foldl_append]

theorem run_reports (s : St) (x : ℝ) (hs : s.score = some x) (l : List (ℕ × ℝ)) :
    run s (l.map fun p => report p.1 p.2) =
      { s with score := some (x + (l.map fun p => weight p.1).sum) } := by
  induction l generalizing s x with
  | nil => cases s; simp_all [run]
  | cons p l ih =>
    have h1 : (replacement s (report p.1 p.2)).1 = { s with score := some (x + weight p.1) } := by
      simp only [replacement, report, Call.setsTarget, hs, weight]
      congr 2
      split <;> norm_num
    simp only [run, List.map_cons, List.foldl_cons, h1]
    have := ih { s with score := some (x + weight p.1) } (x + weight p.1) rfl
    simp only [run] at this
    rw [this]
    simp only [List.sum_cons, add_assoc]

theorem inquiry_resets (s : St) (u : ℝ) :
    (replacement s (inquiry u)).1 = { s with score := some 0 } := by
  simp only [replacement, inquiry, Call.setsTarget]
  split <;> rfl

/-- C20: an inquiry that follows an earlier one is decided on the sum of the weights of the
replacements reported in between, whatever happened before. -/
theorem C20_decided_on_sum (s : St) (before : List Call) (u₀ : ℝ) (l : List (ℕ × ℝ)) (u : ℝ) :
    (replacement (run s (before ++ [inquiry u₀] ++ l.map fun p => report p.1 p.2)) (inquiry u)).2 =
      some (keepStatusQuo (l.map fun p => weight p.1).sum (run s before).sqs u) := by
  rw [run_append, run_append]
  have h1 : run (run s before) [inquiry u₀] = { run s before with score := some 0 } := by
    simp only [run, List.foldl_cons, List.foldl_nil]
    exact inquiry_resets _ _
  rw [h1, run_reports _ 0 rfl, zero_add]
  simp [replacement, inquiry, Call.setsTarget]

/-- C20: each inquiry starts the score again at zero. -/
theorem C20_inquiry_resets (s : St) (u : ℝ) : (replacement s (inquiry u)).1.score = some 0 := by
  rw [inquiry_resets]

/-- C20: the first inquiry of a population keeps the status quo, whatever was reported before it. -/
theorem C20_first_keeps (sqs : ℝ) (l : List (ℕ × ℝ)) (u : ℝ) :
    (replacement (run (new sqs) (l.map fun p => report p.1 p.2)) (inquiry u)).2 = some true := by
  have h : run (new sqs) (l.map fun p => report p.1 p.2) = new sqs := by
    induction l with
    | nil => rfl
    | cons p l ih => exact ih
  rw [h]; rfl

/-- C20: setting the target takes effect and does not touch the score. -/
theorem C20_set_target (s : St) (q u : ℝ) (hq : q ≠ 0) :
    replacement s (setTarget q u) = ({ s with sqs := q }, none) := by
  simp [replacement, setTarget, Call.setsTarget, hq]

/-! ## Decision -/

/-- The argument of the sine stays where it increases. -/
theorem prob_eq (x : ℝ) : (0.5 : ℝ) + 0.5 * Real.sin (Real.pi * (x - 0.5)) =
    1 / 2 + 1 / 2 * Real.sin (Real.pi * (x - 1 / 2)) := by norm_num

/-- C20: a score reaching the target always keeps the status quo. -/
theorem C20_target_reached (score sqs u : ℝ) (hs : 0 < sqs) (h : sqs ≤ score) (hu : u < 1) :
    keepStatusQuo score sqs u = true := by
  unfold keepStatusQuo
  simp only
  by_cases hx : score / sqs > 1
  · rw [if_pos hx]
  · rw [if_neg hx]
    have h1 : score / sqs = 1 := le_antisymm (not_lt.1 hx) ((one_le_div hs).2 h)
    rw [prob_eq, h1]
    have h2 : Real.pi * (1 - 1 / 2) = Real.pi / 2 := by ring
    rw [h2, Real.sin_pi_div_two]
    simpa using by linarith

/-- C20: without any replacement the status quo is never kept. -/
theorem C20_zero_never (sqs u : ℝ) (hu : 0 ≤ u) : keepStatusQuo 0 sqs u = false := by
  unfold keepStatusQuo
  simp only [zero_div]
  rw [if_neg (by norm_num), prob_eq]
  have h2 : Real.pi * (0 - 1 / 2) = -(Real.pi / 2) := by ring
  rw [h2, Real.sin_neg, Real.sin_pi_div_two]
  simpa using by linarith

/-- C20: for the same random draw, a higher score keeps the status quo whenever a lower one does. -/
theorem C20_monotone (s₁ s₂ sqs u : ℝ) (hs : 0 < sqs) (h1 : 0 ≤ s₁) (h12 : s₁ ≤ s₂) (hu : u < 1)
    (hk : keepStatusQuo s₁ sqs u = true) : keepStatusQuo s₂ sqs u = true := by
  by_cases h2 : sqs ≤ s₂
  · exact C20_target_reached s₂ sqs u hs h2 hu
  · have h2' : s₂ < sqs := not_le.1 h2
    have e1 : ¬ s₁ / sqs > 1 := by rw [gt_iff_lt, one_lt_div hs]; linarith
    have e2 : ¬ s₂ / sqs > 1 := by rw [gt_iff_lt, one_lt_div hs]; linarith
    unfold keepStatusQuo at hk ⊢
    simp only [if_neg e1, if_neg e2, decide_eq_true_eq, prob_eq] at hk ⊢
    have hx1 : 0 ≤ s₁ / sqs := div_nonneg h1 hs.le
    have hx2 : s₂ / sqs ≤ 1 := not_lt.1 e2
    have hx12 : s₁ / sqs ≤ s₂ / sqs := div_le_div_of_nonneg_right h12 hs.le
    have hpi := Real.pi_pos
    have hsin : Real.sin (Real.pi * (s₁ / sqs - 1 / 2)) ≤ Real.sin (Real.pi * (s₂ / sqs - 1 / 2)) := by
      apply Real.sin_le_sin_of_le_of_le_pi_div_two
      · nlinarith
      · nlinarith
      · nlinarith
    linarith

/-- C20: strictly between zero and the target both answers are possible, so the chance rises from
never to always: the draws that keep the status quo are those below a threshold in (0, 1) that strictly
increases with the score. -/
theorem C20_threshold (sqs : ℝ) (hs : 0 < sqs) : ∃ p : ℝ → ℝ,
    (∀ s, 0 < s → s < sqs → 0 < p s ∧ p s < 1 ∧ ∀ u, keepStatusQuo s sqs u = decide (u < p s)) ∧
    (∀ s t, 0 ≤ s → s < t → t ≤ sqs → p s < p t) := by
  refine ⟨fun s => 1 / 2 + 1 / 2 * Real.sin (Real.pi * (s / sqs - 1 / 2)), ?_, ?_⟩
  · intro s h0 h1
    have hx0 : 0 < s / sqs := div_pos h0 hs
    have hx1 : s / sqs < 1 := (div_lt_one hs).2 h1
    have hpi := Real.pi_pos
    have a1 : Real.sin (-(Real.pi / 2)) < Real.sin (Real.pi * (s / sqs - 1 / 2)) :=
      Real.sin_lt_sin_of_lt_of_le_pi_div_two (by linarith) (by nlinarith) (by nlinarith)
    have a2 : Real.sin (Real.pi * (s / sqs - 1 / 2)) < Real.sin (Real.pi / 2) :=
      Real.sin_lt_sin_of_lt_of_le_pi_div_two (by nlinarith) (by linarith) (by nlinarith)
    rw [Real.sin_neg, Real.sin_pi_div_two] at a1
    rw [Real.sin_pi_div_two] at a2
    refine ⟨by simp only; linarith, by simp only; linarith, fun u => ?_⟩
    unfold keepStatusQuo
    simp only
    rw [if_neg (not_lt.2 hx1.le), prob_eq]
  · intro s t h0 hst ht
    have hx0 : 0 ≤ s / sqs := div_nonneg h0 hs.le
    have hxst : s / sqs < t / sqs := div_lt_div_of_pos_right hst hs
    have hx1 : t / sqs ≤ 1 := (div_le_one hs).2 ht
    have hpi := Real.pi_pos
    have : Real.sin (Real.pi * (s / sqs - 1 / 2)) < Real.sin (Real.pi * (t / sqs - 1 / 2)) :=
      Real.sin_lt_sin_of_lt_of_le_pi_div_two (by nlinarith) (by nlinarith) (by nlinarith)
    simp only
    linarith

/-- Non-vacuity: one ratio of 8 in a population of 100 (target 2) keeps the status quo for any draw,
ten ratios of 0 need not. -/
example : weight 8 = 15 / 2 ∧ keepStatusQuo (weight 8) 2 (9 / 10) = true ∧
    ((List.replicate 10 (0, (0 : ℝ))).map fun p => weight p.1).sum = 1 ∧
    keepStatusQuo 1 2 (1 / 4) = true ∧ keepStatusQuo 1 2 (3 / 4) = false := by
  refine ⟨by norm_num [weight], C20_target_reached _ _ _ (by norm_num) (by norm_num [weight])
    (by norm_num), by norm_num [weight, List.replicate], ?_, ?_⟩ <;>
  · unfold keepStatusQuo
    simp only
    rw [if_neg (by norm_num), prob_eq]
    norm_num

example := C20_set_target (Replacement.new 2) 3 0 (by norm_num)

example := C20_zero_never 2 (1 / 2) (by norm_num)

example := C20_monotone 1 (3 / 2) 2 (1 / 4) (by norm_num) (by norm_num) (by norm_num) (by norm_num) (by
  unfold keepStatusQuo
  simp only
  rw [if_neg (by norm_num), prob_eq]
  norm_num)

end Replacement
end Ade
