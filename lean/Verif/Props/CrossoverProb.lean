import Verif.Props.Challenge
import Mathlib.MeasureTheory.Measure.Lebesgue.Basic
import Mathlib.MeasureTheory.Constructions.Pi
import Mathlib.Algebra.BigOperators.Field

/-!
# Property C86: how likely each parameter is to come from the donor

Probabilities are volumes: the `n` calls of `random.uniform(0, 1.0)` behind a crossover of `n` parameters are a
point of the unit cube, all parts of equal volume being equally likely; the result of `random.randint(0, n-1)` is
equally likely to be each of the `n` indices, independently.
-/

set_option autoImplicit false

namespace Ade
namespace Challenge

open MeasureTheory Set

/-- The random numbers as a sequence. -/
noncomputable def seq {n : ℕ} (u : Fin n → ℝ) : ℕ → ℝ := fun k => if h : k < n then u ⟨k, h⟩ else 0

/-- The parameters for which the crossover of the vectors `parent` and `mutant` yields the mutant's value. -/
noncomputable def keptSet {α : Type} [Inhabited α] [DecidableEq α] {n : ℕ} (CR : ℝ) (j : Fin n) (u : Fin n → ℝ)
    (parent mutant : Fin n → α) : Finset (Fin n) :=
  Finset.univ.filter fun k =>
    (crossoverWith CR n j (seq u) (List.ofFn parent) (List.ofFn mutant))[(k : ℕ)]? = some (mutant k)

/-- The probability, given the forced parameter `j`, that the crossover takes the parameters in `A` from the mutant
and all others from the parent. -/
noncomputable def probGiven {α : Type} [Inhabited α] [DecidableEq α] {n : ℕ} (CR : ℝ) (parent mutant : Fin n → α)
    (j : Fin n) (A : Finset (Fin n)) : ℝ :=
  (volume : Measure (Fin n → ℝ)).real {u | (∀ i, u i ∈ Ico (0 : ℝ) 1) ∧ keptSet CR j u parent mutant = A}

/-- The probability that parameter `k` of the crossover is the mutant's. -/
noncomputable def probKept {α : Type} [Inhabited α] [DecidableEq α] {n : ℕ} (CR : ℝ) (parent mutant : Fin n → α)
    (k : Fin n) : ℝ :=
  ∑ j : Fin n, (1 / n : ℝ) *
    (volume : Measure (Fin n → ℝ)).real {u | (∀ i, u i ∈ Ico (0 : ℝ) 1) ∧ k ∈ keptSet CR j u parent mutant}

theorem mem_keptSet {α : Type} [Inhabited α] [DecidableEq α] {n : ℕ} (CR : ℝ) (j : Fin n) (u : Fin n → ℝ)
    (parent mutant : Fin n → α) (hne : ∀ k, parent k ≠ mutant k) (k : Fin n) :
    k ∈ keptSet CR j u parent mutant ↔ k = j ∨ u k ≤ CR := by
  unfold keptSet crossoverWith
  rw [Finset.mem_filter, crossover_foldl]
  have hs : seq u k = u k := by simp [seq]
  rw [hs]
  by_cases hj : k = j
  · subst hj; simp
  · have hj' : (k : ℕ) ≠ j := fun h => hj (Fin.ext h)
    by_cases hu : CR < u k
    · simp [hj, hj', hu, hne k]
    · simp [hj, hu, not_lt.1 hu]

theorem volume_le {CR : ℝ} (h1 : CR ≤ 1) :
    volume (Ico (0 : ℝ) 1 ∩ Iic CR) = ENNReal.ofReal CR := by
  rcases h1.lt_or_eq with h | h
  · have : Ico (0 : ℝ) 1 ∩ Iic CR = Icc 0 CR := by
      ext x; simp only [mem_inter_iff, mem_Ico, mem_Iic, mem_Icc]
      constructor
      · rintro ⟨⟨a, b⟩, c⟩; exact ⟨a, c⟩
      · rintro ⟨a, c⟩; exact ⟨⟨a, by linarith⟩, c⟩
    rw [this, Real.volume_Icc, sub_zero]
  · have : Ico (0 : ℝ) 1 ∩ Iic CR = Ico 0 1 := by
      ext x; simp only [mem_inter_iff, mem_Ico, mem_Iic]
      constructor
      · rintro ⟨a, -⟩; exact a
      · rintro ⟨a, c⟩; exact ⟨⟨a, c⟩, by linarith⟩
    rw [this, Real.volume_Ico, sub_zero, h]

theorem volume_gt {CR : ℝ} (h0 : 0 ≤ CR) : volume (Ico (0 : ℝ) 1 ∩ Ioi CR) = ENNReal.ofReal (1 - CR) := by
  have : Ico (0 : ℝ) 1 ∩ Ioi CR = Ioo CR 1 := by
    ext x; simp only [mem_inter_iff, mem_Ico, mem_Ioi, mem_Ioo]
    constructor
    · rintro ⟨⟨-, b⟩, c⟩; exact ⟨c, b⟩
    · rintro ⟨a, c⟩; exact ⟨⟨by linarith, c⟩, a⟩
  rw [this, Real.volume_Ioo]

/-- C86: the crossover is binomial: given the forced parameter, which is always the mutant's, each of the others is
the mutant's with probability `CR`, independently of each other. -/
theorem C86_independent {α : Type} [Inhabited α] [DecidableEq α] {n : ℕ} (CR : ℝ) (h0 : 0 ≤ CR) (h1 : CR ≤ 1)
    (parent mutant : Fin n → α) (hne : ∀ k, parent k ≠ mutant k) (j : Fin n) (A : Finset (Fin n)) :
    probGiven CR parent mutant j A =
      if j ∈ A then CR ^ (A.card - 1) * (1 - CR) ^ (n - A.card) else 0 := by
  unfold probGiven
  by_cases hjA : j ∈ A
  · have hset : {u : Fin n → ℝ | (∀ i, u i ∈ Ico (0 : ℝ) 1) ∧ keptSet CR j u parent mutant = A} =
        Set.pi univ fun k => if k = j then Ico 0 1 else if k ∈ A then Ico 0 1 ∩ Iic CR else Ico 0 1 ∩ Ioi CR := by
      ext u
      simp only [mem_ofPred_eq, Set.mem_pi, mem_univ, true_implies]
      constructor
      · rintro ⟨hu, hA⟩ k
        have hk := mem_keptSet CR j u parent mutant hne k
        rw [hA] at hk
        by_cases hkj : k = j
        · simpa [hkj] using hu j
        · by_cases hkA : k ∈ A
          · simp only [hkj, hkA, if_true, if_false]
            exact ⟨hu k, by simpa [hkj, hkA] using hk⟩
          · simp only [hkj, hkA, if_false]
            exact ⟨hu k, by simpa [hkj, hkA] using hk⟩
      · intro hu
        refine ⟨fun i => ?_, ?_⟩
        · have := hu i
          split at this
          · exact this
          · split at this <;> exact this.1
        · ext k
          rw [mem_keptSet CR j u parent mutant hne k]
          have := hu k
          by_cases hkj : k = j
          · subst hkj; simp [hjA]
          · by_cases hkA : k ∈ A
            · simp only [hkj, hkA, if_true, if_false] at this
              simp only [hkj, hkA, false_or, iff_true]; exact this.2
            · simp only [hkj, hkA, if_false] at this
              simp only [hkj, hkA, false_or, iff_false, not_le]; exact this.2
    rw [if_pos hjA, hset, measureReal_def, volume_pi_pi]
    have hp : ∀ k : Fin n, volume (if k = j then Ico (0 : ℝ) 1 else if k ∈ A then Ico 0 1 ∩ Iic CR
        else Ico 0 1 ∩ Ioi CR) = ENNReal.ofReal (if k = j then 1 else if k ∈ A then CR else 1 - CR) := by
      intro k
      split
      · simp
      · split
        · exact volume_le h1
        · exact volume_gt h0
    simp only [hp]
    rw [← ENNReal.ofReal_prod_of_nonneg (by intro k _; split; · norm_num
                                            · split <;> linarith),
      ENNReal.toReal_ofReal (Finset.prod_nonneg (by intro k _; split; · norm_num
                                                    · split <;> linarith))]
    rw [← Finset.mul_prod_erase _ _ (Finset.mem_univ j), if_pos rfl, one_mul]
    have : ∏ k ∈ Finset.univ.erase j, (if k = j then 1 else if k ∈ A then CR else 1 - CR) =
        ∏ k ∈ Finset.univ.erase j, if k ∈ A then CR else 1 - CR := by
      apply Finset.prod_congr rfl
      intro k hk
      rw [if_neg (Finset.ne_of_mem_erase hk)]
    rw [this, Finset.prod_ite, Finset.prod_const, Finset.prod_const]
    have e1 : (Finset.univ.erase j).filter (fun k => k ∈ A) = A.erase j := by ext k; simp
    have e2 : (Finset.univ.erase j).filter (fun k => k ∉ A) = Aᶜ := by
      ext k; simp only [Finset.mem_filter, Finset.mem_erase, Finset.mem_univ, and_true, Finset.mem_compl]
      exact ⟨fun h => h.2, fun h => ⟨by rintro rfl; exact h hjA, h⟩⟩
    rw [e1, e2, Finset.card_erase_of_mem hjA, Finset.card_compl, Fintype.card_fin]
  · have : {u : Fin n → ℝ | (∀ i, u i ∈ Ico (0 : ℝ) 1) ∧ keptSet CR j u parent mutant = A} = ∅ := by
      ext u
      simp only [mem_ofPred_eq, mem_empty_iff_false, iff_false]
      rintro ⟨-, h⟩
      exact hjA (h ▸ (mem_keptSet CR j u parent mutant hne j).2 (.inl rfl))
    rw [if_neg hjA, this, measureReal_def, measure_empty]; rfl

/-- C86: altogether a parameter of the challenger is the donor's with probability `1/n + (1 - 1/n) CR`. -/
theorem C86_probability {α : Type} [Inhabited α] [DecidableEq α] {n : ℕ} (CR : ℝ) (h0 : 0 ≤ CR) (h1 : CR ≤ 1)
    (parent mutant : Fin n → α) (hne : ∀ k, parent k ≠ mutant k) (k : Fin n) :
    probKept CR parent mutant k = 1 / n + (1 - 1 / n) * CR := by
  have hn : (n : ℝ) ≠ 0 := by have := k.pos; positivity
  have hv : ∀ j : Fin n, (volume : Measure (Fin n → ℝ)).real
      {u | (∀ i, u i ∈ Ico (0 : ℝ) 1) ∧ k ∈ keptSet CR j u parent mutant} = if j = k then 1 else CR := by
    intro j
    have hset : {u : Fin n → ℝ | (∀ i, u i ∈ Ico (0 : ℝ) 1) ∧ k ∈ keptSet CR j u parent mutant} =
        Set.pi univ fun i => if i = k ∧ j ≠ k then Ico 0 1 ∩ Iic CR else Ico 0 1 := by
      ext u
      simp only [mem_ofPred_eq, Set.mem_pi, mem_univ, true_implies, mem_keptSet CR j u parent mutant hne k]
      constructor
      · rintro ⟨hu, hk⟩ i
        split
        · rename_i h
          obtain ⟨rfl, h⟩ := h
          exact ⟨hu i, hk.resolve_left (Ne.symm h)⟩
        · exact hu i
      · intro hu
        refine ⟨fun i => ?_, ?_⟩
        · have := hu i
          split at this
          · exact this.1
          · exact this
        · by_cases hjk : j = k
          · exact .inl hjk.symm
          · have := hu k
            simp only [hjk, ne_eq, not_false_eq_true, and_self, if_true] at this
            exact .inr this.2
    rw [hset, measureReal_def, volume_pi_pi]
    have hp : ∀ i : Fin n, volume (if i = k ∧ j ≠ k then Ico (0 : ℝ) 1 ∩ Iic CR else Ico 0 1) =
        ENNReal.ofReal (if i = k ∧ j ≠ k then CR else 1) := by
      intro i
      split
      · exact volume_le h1
      · simp
    simp only [hp]
    rw [← ENNReal.ofReal_prod_of_nonneg (by intro i _; split <;> linarith),
      ENNReal.toReal_ofReal (Finset.prod_nonneg (by intro i _; split <;> linarith))]
    by_cases hjk : j = k
    · simp [hjk]
    · simp only [hjk, ne_eq, not_false_eq_true, and_true, if_false]
      rw [Finset.prod_ite_eq' Finset.univ k]; simp
  unfold probKept
  simp only [hv]
  rw [← Finset.mul_sum, ← Finset.add_sum_erase _ _ (Finset.mem_univ k), if_pos rfl]
  have : ∑ j ∈ Finset.univ.erase k, (if j = k then (1 : ℝ) else CR) = (n - 1) * CR := by
    rw [Finset.sum_congr rfl (g := fun _ => CR) (by intro j hj; rw [if_neg (Finset.ne_of_mem_erase hj)]),
      Finset.sum_const, Finset.card_erase_of_mem (Finset.mem_univ k), Finset.card_univ, Fintype.card_fin,
      nsmul_eq_mul, Nat.cast_sub k.pos]
    simp
  rw [this]
  field_simp

/-- C86: the expected number of parameters that the challenger gets from the donor is `1 + (n - 1) CR`. -/
theorem C86_expected {α : Type} [Inhabited α] [DecidableEq α] {n : ℕ} (hn : 0 < n) (CR : ℝ) (h0 : 0 ≤ CR)
    (h1 : CR ≤ 1) (parent mutant : Fin n → α) (hne : ∀ k, parent k ≠ mutant k) :
    ∑ k, probKept CR parent mutant k = 1 + (n - 1) * CR := by
  have hn' : (n : ℝ) ≠ 0 := by positivity
  simp only [C86_probability CR h0 h1 parent mutant hne, Finset.sum_const, Finset.card_univ, Fintype.card_fin,
    nsmul_eq_mul]
  field_simp

/-- The hypotheses are met e.g. by these vectors of three parameters. -/
example : ∀ k, (![1, 2, 3] : Fin 3 → ℕ) k ≠ (![4, 5, 6] : Fin 3 → ℕ) k := by decide

example : probGiven (8 / 10 : ℝ) (![1, 2, 3] : Fin 3 → ℕ) ![4, 5, 6] 1 {0, 1} = 8 / 10 * (2 / 10) := by
  rw [C86_independent _ (by norm_num) (by norm_num) _ _ (by decide)]
  norm_num

example := C86_probability (8 / 10) (by norm_num) (by norm_num) (![1, 2, 3] : Fin 3 → ℕ) ![4, 5, 6] (by decide) 1

end Challenge
end Ade
