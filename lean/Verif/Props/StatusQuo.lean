import Verif.Model.StatusQuo
import Verif.Props.Replacement
import Mathlib.MeasureTheory.Measure.Lebesgue.Basic

/-!
# Property C135: how likely the mutation range is left alone

The documentation of `Population` and of its method `replacement` (ade/population.py:315-332, 888-974): weights of the
improvement ratios, examples, and how the chance of keeping the status quo depends on the size of the population.
-/

set_option autoImplicit false

namespace Ade
namespace StatusQuo

open Replacement MeasureTheory Set

/-! ## Specification -/

/-- The score of a generation: the sum of the weights of its improvement ratios. -/
noncomputable def score (rirs : List ℕ) : ℝ := (rirs.map weight).sum

/-- The chance of keeping the status quo with the share `x` of the target reached: from 0 to 1 along a half wave. -/
noncomputable def chance (x : ℝ) : ℝ := if 1 < x then 1 else (1 - Real.cos (Real.pi * x)) / 2

/-- The target fraction in force: the one given unless it is zero; by default two percent. -/
def InForce (given : Option ℝ) (f : ℝ) : Prop :=
  (given = some f ∧ f ≠ 0) ∨ ((given = none ∨ given = some 0) ∧ f = 2 / 100)

theorem fraction_inForce {given : Option ℝ} {f : ℝ} (h : InForce given f) : fraction given = f := by
  rcases h with ⟨rfl, h⟩ | ⟨rfl | rfl, rfl⟩
  · simp [fraction, h]
  · norm_num [fraction]
  · norm_num [fraction]

theorem score_nonneg (rirs : List ℕ) : 0 ≤ score rirs := by
  refine List.sum_nonneg fun x hx => ?_
  obtain ⟨r, -, rfl⟩ := List.mem_map.1 hx
  unfold weight
  split
  · norm_num
  · rename_i h
    have : (1 : ℝ) ≤ r := by exact_mod_cast Nat.one_le_iff_ne_zero.2 h
    linarith

theorem keep_chance {s q u : ℝ} (h1 : u < 1) : keepStatusQuo s q u = true ↔ u < chance (s / q) := by
  unfold keepStatusQuo chance
  dsimp only
  by_cases h : 1 < s / q
  · rw [if_pos h, if_pos h]; simp [h1]
  · rw [if_neg h, if_neg h, prob_eq]
    have e : Real.sin (Real.pi * (s / q - 1 / 2)) = -Real.cos (Real.pi * (s / q)) := by
      rw [mul_sub, ← Real.sin_sub_pi_div_two]; congr 1; ring
    rw [e, decide_eq_true_iff]
    constructor <;> intro h <;> linarith

theorem chance_mem (x : ℝ) : 0 ≤ chance x ∧ chance x ≤ 1 := by
  unfold chance
  split
  · norm_num
  · constructor <;> linarith [Real.cos_le_one (Real.pi * x), Real.neg_one_le_cos (Real.pi * x)]

theorem sizeOf_pos (popsize : Option ℤ) (Nd : ℕ) : (20 : ℝ) ≤ Population.sizeOf popsize Nd := by
  have : (20 : ℤ) ≤ Population.sizeOf popsize Nd := le_max_left _ _
  exact_mod_cast this

theorem run_sqs (s : St) (cs : List Call) (h : ∀ c ∈ cs, c.sqs = none) : (run s cs).sqs = s.sqs := by
  induction cs generalizing s with
  | nil => rfl
  | cons c cs ih =>
    have hc := h c (by simp)
    have h1 : (replacement s c).1.sqs = s.sqs := by
      unfold replacement Call.setsTarget
      rw [hc]
      dsimp only
      split
      · split <;> rfl
      · split <;> rfl
    show (run (replacement s c).1 cs).sqs = s.sqs
    rw [ih _ fun c' hc' => h c' (by simp [hc']), h1]

/-- After at least one earlier generation the answer depends on the last one only. -/
theorem answer_eq (s : St) (past : List (List ℕ)) (hp : past ≠ []) (rirs : List ℕ) (u : ℝ) :
    answer s past rirs u = some (keepStatusQuo (score rirs) s.sqs u) := by
  obtain ⟨past', g, rfl⟩ : ∃ a b, past = a ++ [b] := ⟨_, _, (List.dropLast_append_getLast hp).symm⟩
  unfold answer
  dsimp only
  set gen : List ℕ → List Call := fun g => g.map (fun r => ⟨some r, none, 0⟩) ++ [⟨none, none, 0⟩]
  have key := C20_decided_on_sum s ((past'.map gen).flatten ++ g.map fun r => ⟨some r, none, 0⟩) 0
    (rirs.map fun r => (r, 0)) u
  have e1 : ((past' ++ [g]).map gen).flatten ++ rirs.map (fun r => (⟨some r, none, 0⟩ : Call)) =
      ((past'.map gen).flatten ++ g.map fun r => ⟨some r, none, 0⟩) ++ [inquiry 0] ++
        (rirs.map fun r => (r, (0 : ℝ))).map fun p => report p.1 p.2 := by
    simp [gen, inquiry, report, Function.comp_def]
  rw [e1]
  show (replacement _ (inquiry u)).2 = _
  rw [key, run_sqs]
  · congr 2
    simp [score, Function.comp_def]
  · intro c hc
    rcases List.mem_append.1 hc with hc | hc
    · obtain ⟨l, hl, hc⟩ := List.mem_flatten.1 hc
      obtain ⟨g', -, rfl⟩ := List.mem_map.1 hl
      rcases List.mem_append.1 hc with hc | hc
      · obtain ⟨r, -, rfl⟩ := List.mem_map.1 hc; rfl
      · rw [List.mem_singleton.1 hc]
    · obtain ⟨r, -, rfl⟩ := List.mem_map.1 hc; rfl

/-! ## C135 -/

/-- C135, what does hold: the chance of keeping the status quo at the end of a generation that is not the first depends
on the ratio of the generation's score to the target, rising from 0 to 1 along a half wave, and is 1 beyond the target.
The target is the fraction in force times the population's size.

The full property asks also that in a small population the status quo is sometimes kept without any improvement;
`C135_no_improvement_never` shows that this does not happen. -/
theorem C135_chance_partial (fr : Option ℝ) (f : ℝ) (hf : InForce fr f) (ps : Option ℤ) (Nd : ℕ)
    (past : List (List ℕ)) (hp : past ≠ [])
    (rirs : List ℕ) :
    (volume : Measure ℝ).real {u | u ∈ Ico (0 : ℝ) 1 ∧ answer (created fr ps Nd) past rirs u = some true} =
      chance (score rirs / (f * Population.sizeOf ps Nd)) := by
  rw [← fraction_inForce hf]
  have e : {u | u ∈ Ico (0 : ℝ) 1 ∧ answer (created fr ps Nd) past rirs u = some true} =
      Ico 0 (chance (score rirs / (fraction fr * Population.sizeOf ps Nd))) := by
    ext u
    simp only [mem_ofPred_eq, mem_Ico, answer_eq _ _ hp, Option.some.injEq]
    constructor
    · rintro ⟨⟨h0, h1⟩, h⟩
      exact ⟨h0, (keep_chance h1).1 h⟩
    · rintro ⟨h0, h⟩
      have h1 : u < 1 := lt_of_lt_of_le h (chance_mem _).2
      exact ⟨⟨h0, h1⟩, (keep_chance h1).2 h⟩
  rw [e, measureReal_def, Real.volume_Ico, sub_zero, ENNReal.toReal_ofReal (chance_mem _).1]

/-- C135: with the same improvements and the same random number, what keeps the status quo in a larger population does so
in a smaller one. -/
theorem C135_larger_population (fr : Option ℝ) (f : ℝ) (hfr : InForce fr f) (hf0 : 0 < f) (ps ps' : Option ℤ) (Nd Nd' : ℕ)
    (h : Population.sizeOf ps Nd ≤ Population.sizeOf ps' Nd') (past : List (List ℕ)) (rirs : List ℕ) (u : ℝ)
    (h1 : u < 1) (hk : answer (created fr ps' Nd') past rirs u = some true) :
    answer (created fr ps Nd) past rirs u = some true := by
  have hf : 0 < fraction fr := by rwa [fraction_inForce hfr]
  by_cases hp : past = []
  · subst hp
    have := C20_first_keeps (target fr ps Nd) (rirs.map fun r => (r, 0)) u
    simpa [answer, created, report, inquiry, Function.comp_def] using this
  · rw [answer_eq _ _ hp] at hk ⊢
    simp only [Option.some.injEq] at hk ⊢
    have q0 : 0 < target fr ps Nd := mul_pos hf (by linarith [sizeOf_pos ps Nd])
    have hq : target fr ps Nd ≤ target fr ps' Nd' := by
      refine mul_le_mul_of_nonneg_left ?_ hf.le
      exact_mod_cast h
    have q0' : 0 < target fr ps' Nd' := lt_of_lt_of_le q0 hq
    have hs := score_nonneg rirs
    -- a score scaled to the larger target
    have e : keepStatusQuo (score rirs) (target fr ps Nd) u =
        keepStatusQuo (score rirs / target fr ps Nd * target fr ps' Nd') (target fr ps' Nd') u := by
      rw [Bool.eq_iff_iff, keep_chance h1, keep_chance h1, mul_div_assoc, div_self q0'.ne', mul_one]
    show keepStatusQuo (score rirs) (target fr ps Nd) u = true
    rw [e]
    refine C20_monotone _ _ _ u q0' hs ?_ h1 hk
    rw [div_mul_eq_mul_div, le_div_iff₀ q0]
    exact mul_le_mul_of_nonneg_left hq hs

/-- C135: further improvements never hurt, and any improvement gives a chance. -/
theorem C135_more_improvements (fr : Option ℝ) (f : ℝ) (hfr : InForce fr f) (hf0 : 0 < f) (ps : Option ℤ) (Nd : ℕ)
    (past : List (List ℕ)) (hp : past ≠ []) (rirs more : List ℕ) :
    (∀ u, u < 1 → answer (created fr ps Nd) past rirs u = some true →
      answer (created fr ps Nd) past (rirs ++ more) u = some true) ∧
    (rirs ≠ [] → answer (created fr ps Nd) past rirs 0 = some true) := by
  have hf : 0 < fraction fr := by rwa [fraction_inForce hfr]
  have q0 : 0 < target fr ps Nd := mul_pos hf (by linarith [sizeOf_pos ps Nd])
  constructor
  · intro u h1 hk
    rw [answer_eq _ _ hp] at hk ⊢
    simp only [Option.some.injEq] at hk ⊢
    refine C20_monotone _ _ _ u q0 (score_nonneg rirs) ?_ h1 hk
    have := score_nonneg more
    simp only [score, List.map_append, List.sum_append] at this ⊢
    linarith
  · intro hr
    rw [answer_eq _ _ hp, Option.some.injEq, keep_chance (by norm_num)]
    have hpos : 0 < score rirs := by
      obtain ⟨r, l, rfl⟩ := List.exists_cons_of_ne_nil hr
      have h1 := score_nonneg l
      have h2 : 0 < weight r := by
        unfold weight
        split
        · norm_num
        · rename_i h
          have : (1 : ℝ) ≤ r := by exact_mod_cast Nat.one_le_iff_ne_zero.2 h
          linarith
      simp only [score, List.map_cons, List.sum_cons] at h1 ⊢
      linarith
    have hx : 0 < score rirs / target fr ps Nd := div_pos hpos q0
    simp only [created, new]
    unfold chance
    split
    · norm_num
    · rename_i hle
      have hcos : Real.cos (Real.pi * (score rirs / target fr ps Nd)) < Real.cos 0 := by
        refine Real.cos_lt_cos_of_nonneg_of_le_pi le_rfl ?_ (mul_pos Real.pi_pos hx)
        nlinarith [Real.pi_pos, not_lt.1 hle]
      rw [Real.cos_zero] at hcos
      linarith

/-- C135: the weights of the improvement ratios and the examples of the documentation: a ratio of 1 has five times the
weight of 0, 2 three times and 3 five times that of 1, 9 has 3.4 times that of 3; ten ratios of 1 score 5.0, one of 8
scores 7.5; in a population of 100 with a target fraction of 2.5%, ten ratios of 1, or one of 2 and five of 1, or one of
3, or fifty of 0 always keep the status quo. -/
theorem C135_documented :
    score [1] = 5 * score [0] ∧ score [2] = 3 * score [1] ∧ score [3] = 5 * score [1] ∧ score [9] = 3.4 * score [3] ∧
    score (List.replicate 10 1) = 5 ∧ score [8] = 7.5 ∧
    ∀ rirs ∈ [List.replicate 10 1, 2 :: List.replicate 5 1, [3], List.replicate 50 0],
      ∀ past u, u < 1 → answer (created (some 0.025) none 10) past rirs u = some true := by
  refine ⟨by norm_num [score, weight], by norm_num [score, weight], by norm_num [score, weight],
    by norm_num [score, weight], by norm_num [score, weight, List.replicate], by norm_num [score, weight], ?_⟩
  intro rirs hr past u h1
  by_cases hp : past = []
  · subst hp
    have := C20_first_keeps (target (some 0.025) none 10) (rirs.map fun r => (r, 0)) u
    simpa [answer, created, report, inquiry, Function.comp_def] using this
  · rw [answer_eq _ _ hp]
    have ht : target (some 0.025) none 10 = 2.5 := by
      norm_num [target, fraction, Population.sizeOf]
    congr 1
    refine C20_target_reached _ _ u (by simp only [created, new, ht]; norm_num) ?_ h1
    simp only [created, new, ht]
    simp only [List.mem_cons, List.not_mem_nil, or_false] at hr
    rcases hr with rfl | rfl | rfl | rfl <;> norm_num [score, weight, List.replicate]

/-- C135: without any improvement the status quo is never kept, however small the population, except in the first
generation. The documentation says that it "will sometimes happen even with no improvements". -/
theorem C135_no_improvement_never (fr : Option ℝ) (ps : Option ℤ) (Nd : ℕ) (past : List (List ℕ)) (hp : past ≠ []) (u : ℝ)
    (hu : 0 ≤ u) : answer (created fr ps Nd) past [] u = some false := by
  rw [answer_eq _ _ hp]
  congr 1
  exact C20_zero_never _ u hu

/-! ## Examples -/

theorem demo_fraction : InForce none (2 / 100) := .inr ⟨.inl rfl, rfl⟩

example := C135_chance_partial (some (3 / 100)) (3 / 100) (.inl ⟨rfl, by norm_num⟩) none 10 [[1, 0]] (by simp) [0, 1]
example := C135_more_improvements none _ demo_fraction (by norm_num) none 10 [[1, 0]] (by simp) [0] [1]
example := C135_no_improvement_never none none 1 [[1, 0]] (by simp) (1 / 2) (by norm_num)

/-- Non-vacuity of `C135_larger_population`: populations of 100 and of 20. -/
example : answer (created none none 1) [[]] [1] (1 / 8) = some true := by
  refine C135_larger_population none _ demo_fraction (by norm_num) none none 1 10 (by decide) _ _ _ (by norm_num) ?_
  rw [answer_eq _ _ (by simp), Option.some.injEq, keep_chance (by norm_num)]
  have ht : target none none 10 = 2 := by norm_num [target, fraction, Population.sizeOf]
  have hs : score [1] = 1 / 2 := by norm_num [score, weight]
  have hc : Real.cos (Real.pi * (1 / 2 / 2)) = Real.sqrt 2 / 2 := by
    rw [show Real.pi * (1 / 2 / 2) = Real.pi / 4 by ring, Real.cos_pi_div_four]
  simp only [created, new, ht, hs]
  unfold chance
  rw [if_neg (by norm_num), hc]
  have : Real.sqrt 2 ≤ 3 / 2 - 1 / 100 := by
    rw [Real.sqrt_le_iff]; norm_num
  linarith

end StatusQuo
end Ade
