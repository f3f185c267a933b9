import Verif.Model.MachineRandom
import Verif.Props.Challenge
import Verif.Props.ReplacementRounded
import Mathlib.Data.Fintype.Fin
import Mathlib.Data.Fintype.BigOperators
import Mathlib.Algebra.Order.Floor.Semiring

/-!
# C161: chances are as documented with the random numbers of the machine
-/

set_option autoImplicit false

namespace Ade
namespace MachineRandom

open RatioRounded (RoundsToNearest round53 round53_nearest fl_self)
open ReplacementRounded (Arith Good total chance)
open Rounding (Repr)

/-! ## Specification -/

/-- In how many cases parameters `A`, and only these, are the mutant's after the crossover. -/
def count {α : Type} [Inhabited α] [DecidableEq α] {n : ℕ} (fl : ℚ → ℚ) (CR : ℚ) (j : Fin n) (parent mutant : Fin n → α)
    (A : Finset (Fin n)) : ℕ :=
  (Finset.univ.filter fun w : Fin n → Fin cases =>
    ∀ k, (k ∈ A ↔ (crossover fl CR j w parent mutant)[(k : ℕ)]? = some (mutant k))).card

/-! ## Counting -/

theorem count_lt {α : Type} [Field α] [LinearOrder α] [IsStrictOrderedRing α] [FloorSemiring α] (N : ℕ) (t : α) :
    (Finset.univ.filter fun w : Fin N => ((w : ℕ) : α) < t).card = min N ⌈t⌉₊ := by
  rw [← Fin.card_filter_val_lt]
  congr 1
  ext w
  simp only [Finset.mem_filter, Finset.mem_univ, true_and]
  exact Nat.lt_ceil.symm

theorem count_le {α : Type} [Field α] [LinearOrder α] [IsStrictOrderedRing α] [FloorSemiring α] (N : ℕ) (t : α) (h : 0 ≤ t) :
    (Finset.univ.filter fun w : Fin N => ((w : ℕ) : α) ≤ t).card = min N (⌊t⌋₊ + 1) := by
  rw [← Fin.card_filter_val_lt]
  congr 1
  ext w
  simp only [Finset.mem_filter, Finset.mem_univ, true_and]
  rw [Nat.lt_succ_iff, Nat.le_floor_iff h]

theorem repr_draw (w : Fin cases) : Repr 53 (draw w) := by
  refine ⟨w, -53, ?_, ?_⟩
  · have : (w : ℕ) < 2 ^ 53 := w.2
    rw [abs_of_nonneg (by positivity)]
    exact_mod_cast this
  · simp only [draw, Int.cast_natCast]
    rw [zpow_neg, div_eq_mul_inv]
    norm_num

/-- `random.uniform(0, 1.0)` is `random.random()`. -/
theorem uniform_unit {fl : ℚ → ℚ} (hfl : RoundsToNearest fl) (w : Fin cases) : uniform fl 0 1 w = draw w := by
  unfold uniform
  rw [sub_zero, fl_self hfl RatioRounded.repr_one, one_mul, fl_self hfl (repr_draw w), zero_add, fl_self hfl (repr_draw w)]

theorem kept_iff {α : Type} [Inhabited α] {n : ℕ} {fl : ℚ → ℚ} (hfl : RoundsToNearest fl) (CR : ℚ) (j : Fin n) (w : Fin n → Fin cases)
    (parent mutant : Fin n → α) (hne : ∀ k, parent k ≠ mutant k) (k : Fin n) :
    (crossover fl CR j w parent mutant)[(k : ℕ)]? = some (mutant k) ↔ k = j ∨ draw (w k) ≤ CR := by
  unfold crossover Challenge.crossoverWith
  rw [Challenge.crossover_foldl]
  have hs : (if h : (k : ℕ) < n then uniform fl 0 1 (w ⟨k, h⟩) else 0) = draw (w k) := by
    rw [dif_pos k.2, uniform_unit hfl]
  rw [hs]
  by_cases hj : k = j
  · subst hj; simp
  · have hj' : (k : ℕ) ≠ j := fun h => hj (Fin.ext h)
    by_cases hu : CR < draw (w k)
    · simp [hj, hj', hu, hne k]
    · simp [hj, hu, not_lt.1 hu]

/-- Counting the cases of the draws one by one. -/
theorem count_product {α : Type} [Inhabited α] [DecidableEq α] {n : ℕ} {fl : ℚ → ℚ} (hfl : RoundsToNearest fl) (CR : ℚ) (j : Fin n)
    (parent mutant : Fin n → α) (hne : ∀ k, parent k ≠ mutant k) (A : Finset (Fin n)) :
    count fl CR j parent mutant A =
      if j ∈ A then cases * (Finset.univ.filter fun w : Fin cases => draw w ≤ CR).card ^ (A.card - 1) *
        (cases - (Finset.univ.filter fun w : Fin cases => draw w ≤ CR).card) ^ (n - A.card) else 0 := by
  unfold count
  by_cases hjA : j ∈ A
  · have hset : (Finset.univ.filter fun w : Fin n → Fin cases =>
        ∀ k, (k ∈ A ↔ (crossover fl CR j w parent mutant)[(k : ℕ)]? = some (mutant k))) =
        Fintype.piFinset fun k => if k = j then Finset.univ
          else if k ∈ A then Finset.univ.filter fun w : Fin cases => draw w ≤ CR
          else Finset.univ.filter fun w : Fin cases => ¬ draw w ≤ CR := by
      ext w
      simp only [Finset.mem_filter, Finset.mem_univ, true_and, Fintype.mem_piFinset]
      refine forall_congr' fun k => ?_
      rw [kept_iff hfl CR j w parent mutant hne k]
      by_cases hkj : k = j
      · subst hkj; simp [hjA]
      · by_cases hkA : k ∈ A <;> simp [hkj, hkA]
    have hnot : (Finset.univ.filter fun w : Fin cases => ¬ draw w ≤ CR).card =
        cases - (Finset.univ.filter fun w : Fin cases => draw w ≤ CR).card := by
      have := Finset.card_filter_add_card_filter_not (s := (Finset.univ : Finset (Fin cases))) (fun w => draw w ≤ CR)
      rw [Finset.card_univ, Fintype.card_fin] at this
      omega
    rw [if_pos hjA, hset, Fintype.card_piFinset, ← Finset.mul_prod_erase _ _ (Finset.mem_univ j), if_pos rfl, Finset.card_univ,
      Fintype.card_fin, mul_assoc]
    refine congrArg (cases * ·) ?_
    have : ∏ k ∈ Finset.univ.erase j, (if k = j then Finset.univ
          else if k ∈ A then Finset.univ.filter fun w : Fin cases => draw w ≤ CR
          else Finset.univ.filter fun w : Fin cases => ¬ draw w ≤ CR).card =
        ∏ k ∈ Finset.univ.erase j, if k ∈ A then (Finset.univ.filter fun w : Fin cases => draw w ≤ CR).card
          else cases - (Finset.univ.filter fun w : Fin cases => draw w ≤ CR).card := by
      apply Finset.prod_congr rfl
      intro k hk
      rw [if_neg (Finset.ne_of_mem_erase hk), ← hnot]
      split <;> rfl
    rw [this, Finset.prod_ite, Finset.prod_const, Finset.prod_const]
    have e1 : (Finset.univ.erase j).filter (fun k => k ∈ A) = A.erase j := by ext k; simp
    have e2 : (Finset.univ.erase j).filter (fun k => k ∉ A) = Aᶜ := by
      ext k; simp only [Finset.mem_filter, Finset.mem_erase, Finset.mem_univ, and_true, Finset.mem_compl]
      exact ⟨fun h => h.2, fun h => ⟨by rintro rfl; exact h hjA, h⟩⟩
    rw [e1, e2, Finset.card_erase_of_mem hjA, Finset.card_compl, Fintype.card_fin]
  · rw [if_neg hjA, Finset.card_eq_zero, Finset.filter_eq_empty_iff]
    intro w _ h
    exact hjA ((h j).2 ((kept_iff hfl CR j w parent mutant hne j).2 (.inl rfl)))

theorem count_draw (CR : ℚ) (h0 : 0 ≤ CR) :
    (Finset.univ.filter fun w : Fin cases => draw w ≤ CR).card = min cases (⌊CR * 2 ^ 53⌋₊ + 1) := by
  rw [← count_le _ _ (by positivity)]
  refine congrArg Finset.card (Finset.filter_congr fun w _ => ?_)
  unfold draw
  rw [div_le_iff₀ (by norm_num)]

/-! ## The property -/

/-- C161: of the `2^53` results of a random number, a number `c` lets a parameter be the mutant's, with `c / 2^53` more than `CR` by at
most `2^-53` (and equal to it if `CR` is 1).  The forced parameter is always the mutant's, and the others are so independently of each
other. -/
theorem C161_crossover {fl : ℚ → ℚ} (hfl : RoundsToNearest fl) (CR : ℚ) (h0 : 0 ≤ CR) (h1 : CR ≤ 1) :
    ∃ c : ℕ, c ≤ 2 ^ 53 ∧ CR ≤ c / 2 ^ 53 ∧ (c : ℚ) / 2 ^ 53 ≤ CR + 1 / 2 ^ 53 ∧
      ∀ {α : Type} [Inhabited α] [DecidableEq α] {n : ℕ} (j : Fin n) (parent mutant : Fin n → α), (∀ k, parent k ≠ mutant k) →
        ∀ A : Finset (Fin n), (count fl CR j parent mutant A : ℚ) / (2 ^ 53) ^ n =
          if j ∈ A then ((c : ℚ) / 2 ^ 53) ^ (A.card - 1) * (1 - c / 2 ^ 53) ^ (n - A.card) else 0 := by
  have hc := count_draw CR h0
  have hN : ((cases : ℕ) : ℚ) = 2 ^ 53 := by unfold cases; push_cast; rfl
  have hcN : (Finset.univ.filter fun w : Fin cases => draw w ≤ CR).card ≤ cases := by rw [hc]; exact min_le_left _ _
  have hcQ : (((Finset.univ.filter fun w : Fin cases => draw w ≤ CR).card : ℕ) : ℚ) =
      min ((2 : ℚ) ^ 53) (⌊CR * 2 ^ 53⌋₊ + 1) := by rw [hc, Nat.cast_min, hN]; push_cast; rfl
  refine ⟨_, hcN, ?_, ?_, ?_⟩
  · rw [le_div_iff₀ (by norm_num), hcQ, le_min_iff]
    exact ⟨by linarith, (Nat.lt_floor_add_one _).le⟩
  · rw [div_le_iff₀ (by norm_num), hcQ]
    refine (min_le_right _ _).trans ?_
    have := Nat.floor_le (show 0 ≤ CR * 2 ^ 53 by positivity)
    have e : (CR + 1 / 2 ^ 53) * 2 ^ 53 = CR * 2 ^ 53 + 1 := by ring
    rw [e]; linarith
  · intro α _ _ n j parent mutant hne A
    rw [count_product hfl CR j parent mutant hne A]
    split_ifs with hj
    · have hA1 : 1 ≤ A.card := Finset.card_pos.2 ⟨j, hj⟩
      have hAn : A.card ≤ n := by simpa using Finset.card_le_univ A
      push_cast [Nat.cast_sub hcN]
      rw [hN]
      generalize (((Finset.univ.filter fun w : Fin cases => draw w ≤ CR).card : ℕ) : ℚ) = c
      have hn : n = 1 + (A.card - 1) + (n - A.card) := by omega
      have hP : (0 : ℚ) < 2 ^ 53 := by norm_num
      have e : ((2 : ℚ) ^ 53) ^ n = 2 ^ 53 * (2 ^ 53) ^ (A.card - 1) * (2 ^ 53) ^ (n - A.card) := by
        conv_lhs => rw [hn, pow_add, pow_add, pow_one]
      rw [e]
      generalize (2 : ℚ) ^ 53 = P at *
      have e2 : 1 - c / P = (P - c) / P := by field_simp
      rw [e2, div_pow, div_pow]
      have := pow_pos hP (A.card - 1)
      have := pow_pos hP (n - A.card)
      field_simp
    · simp

/-- C161: with a `CR` of 1, the challenger is the mutant. -/
theorem C161_always {α : Type} [Inhabited α] {n : ℕ} {fl : ℚ → ℚ} (hfl : RoundsToNearest fl) (j : Fin n) (w : Fin n → Fin cases)
    (parent mutant : Fin n → α) : crossover fl 1 j w parent mutant = List.ofFn mutant := by
  unfold crossover Challenge.crossoverWith
  apply List.ext_getElem?
  intro k
  rw [Challenge.crossover_foldl, if_neg]
  rintro ⟨h1, -, -, h2⟩
  rw [dif_pos h1, uniform_unit hfl] at h2
  have : ((w ⟨k, h1⟩ : ℕ) : ℚ) < 2 ^ 53 := by exact_mod_cast (w ⟨k, h1⟩).2
  unfold draw at h2
  rw [lt_div_iff₀ (by norm_num)] at h2
  linarith

theorem uniform_error {fl : ℚ → ℚ} (hfl : RoundsToNearest fl) {lo hi : ℚ} (h0 : 0 ≤ lo) (h1 : lo ≤ hi) (w : Fin cases) :
    |uniform fl lo hi w - (lo + (hi - lo) * draw w)| ≤ 4 * hi / 2 ^ 53 := by
  have hu0 : 0 ≤ draw w := by unfold draw; positivity
  have hu1 : draw w ≤ 1 := by
    unfold draw
    rw [div_le_one (by norm_num)]
    exact_mod_cast w.2.le
  unfold uniform
  generalize draw w = u at *
  have e1 := RelationsRounded.rounding_error_abs hfl (hi - lo)
  rw [abs_of_nonneg (show 0 ≤ hi - lo by linarith)] at e1
  generalize fl (hi - lo) = d at *
  have e2 := RelationsRounded.rounding_error_abs hfl (d * u)
  have b1 : |d * u - (hi - lo) * u| ≤ (hi - lo) / 2 ^ 53 := by
    rw [← sub_mul, abs_mul, abs_of_nonneg hu0]
    exact (mul_le_of_le_one_right (abs_nonneg _) hu1).trans e1
  generalize d * u = y at *
  have b2 : (hi - lo) * u ≤ hi - lo := mul_le_of_le_one_right (by linarith) hu1
  have b2' : 0 ≤ (hi - lo) * u := mul_nonneg (by linarith) hu0
  generalize (hi - lo) * u = z at *
  have b3 : |y| ≤ (hi - lo) * (1 + 1 / 2 ^ 53) := by
    have := abs_le.1 b1
    have hd : 0 ≤ (hi - lo) / 2 ^ 53 := div_nonneg (by linarith) (by norm_num)
    have e : (hi - lo) * (1 + 1 / 2 ^ 53) = (hi - lo) + (hi - lo) / 2 ^ 53 := by ring
    rw [e, abs_le]; constructor <;> linarith
  have b4 : |fl y - y| ≤ (hi - lo) * (1 + 1 / 2 ^ 53) / 2 ^ 53 := e2.trans (div_le_div_of_nonneg_right b3 (by norm_num))
  generalize fl y = y' at *
  have e3 := RelationsRounded.rounding_error_abs hfl (lo + y')
  have b5 : |lo + y'| ≤ lo + (hi - lo) * (1 + 1 / 2 ^ 53) * (1 + 1 / 2 ^ 53) := by
    have h1 := abs_le.1 b3
    have h2 := abs_le.1 b4
    have h3 := abs_le.1 b1
    have e : (hi - lo) * (1 + 1 / 2 ^ 53) * (1 + 1 / 2 ^ 53) =
      (hi - lo) * (1 + 1 / 2 ^ 53) + (hi - lo) * (1 + 1 / 2 ^ 53) / 2 ^ 53 := by ring
    rw [e]
    have : |lo + y'| ≤ |lo| + |y| + |y' - y| := by
      have : lo + y' = lo + y + (y' - y) := by ring
      rw [this]; exact abs_add_three _ _ _
    rw [abs_of_nonneg h0] at this
    linarith
  have b6 : |fl (lo + y') - (lo + y')| ≤ (lo + (hi - lo) * (1 + 1 / 2 ^ 53) * (1 + 1 / 2 ^ 53)) / 2 ^ 53 :=
    e3.trans (div_le_div_of_nonneg_right b5 (by norm_num))
  generalize fl (lo + y') = v at *
  have t : |v - (lo + z)| ≤ |v - (lo + y')| + |y' - y| + |y - z| := by
    have : v - (lo + z) = (v - (lo + y')) + (y' - y) + (y - z) := by ring
    rw [this]; exact abs_add_three _ _ _
  refine t.trans ?_
  have hd : 0 ≤ hi - lo := by linarith
  clear e1 e2 e3 t b5 b3 b2 b2'
  generalize |v - (lo + y')| = A1 at *
  generalize |y' - y| = A2 at *
  generalize |y - z| = A3 at *
  norm_num at *
  linarith

/-- C161: the mutation factor is uniform in its range: it is below `x` with the chance `(x - lo)/(hi - lo)` to within
`(4 hi/(hi - lo) + 1)/2^53`. -/
theorem C161_mutation_factor {fl : ℚ → ℚ} (hfl : RoundsToNearest fl) (lo hi x : ℚ) (h0 : 0 ≤ lo) (h1 : lo < hi) (hx0 : lo ≤ x)
    (hx1 : x ≤ hi) :
    |(((Finset.univ.filter fun w => getF fl (.range lo hi) w < x).card : ℕ) : ℚ) / 2 ^ 53 - (x - lo) / (hi - lo)| ≤
      (4 * hi / (hi - lo) + 1) / 2 ^ 53 := by
  have hd : 0 < hi - lo := by linarith
  have herr : ∀ w : Fin cases, |getF fl (.range lo hi) w - (lo + (hi - lo) * draw w)| ≤ 4 * hi / 2 ^ 53 :=
    fun w => uniform_error hfl h0 h1.le w
  have hN : ((cases : ℕ) : ℚ) = 2 ^ 53 := by unfold cases; norm_num
  have hlow : (Finset.univ.filter fun w : Fin cases => ((w : ℕ) : ℚ) < ((x - lo) * 2 ^ 53 - 4 * hi) / (hi - lo)) ⊆
      Finset.univ.filter fun w => getF fl (.range lo hi) w < x := by
    intro w
    simp only [Finset.mem_filter, Finset.mem_univ, true_and]
    intro h
    have := (abs_le.1 (herr w)).2
    rw [lt_div_iff₀ hd] at h
    have e : (hi - lo) * draw w = (w : ℕ) * (hi - lo) / 2 ^ 53 := by unfold draw; ring
    have h' := div_lt_div_of_pos_right h (show (0 : ℚ) < 2 ^ 53 by norm_num)
    have e2 : ((x - lo) * 2 ^ 53 - 4 * hi) / 2 ^ 53 = x - lo - 4 * hi / 2 ^ 53 := by field_simp
    rw [e] at this
    rw [e2] at h'
    linarith
  have hhigh : (Finset.univ.filter fun w => getF fl (.range lo hi) w < x) ⊆
      Finset.univ.filter fun w : Fin cases => ((w : ℕ) : ℚ) ≤ ((x - lo) * 2 ^ 53 + 4 * hi) / (hi - lo) := by
    intro w
    simp only [Finset.mem_filter, Finset.mem_univ, true_and]
    intro h
    have := (abs_le.1 (herr w)).1
    rw [le_div_iff₀ hd]
    have e : (hi - lo) * draw w = (w : ℕ) * (hi - lo) / 2 ^ 53 := by unfold draw; ring
    rw [e] at this
    have h' : (w : ℕ) * (hi - lo) / 2 ^ 53 ≤ (x - lo) + 4 * hi / 2 ^ 53 := by linarith
    rw [div_le_iff₀ (by norm_num)] at h'
    have e2 : (x - lo + 4 * hi / 2 ^ 53) * 2 ^ 53 = (x - lo) * 2 ^ 53 + 4 * hi := by field_simp
    rwa [e2] at h'
  have hxl : 0 ≤ (x - lo) := by linarith
  have hh : 0 < hi := by linarith
  have l1 := Finset.card_le_card hlow
  have l2 := Finset.card_le_card hhigh
  rw [count_lt] at l1
  rw [count_le _ _ (by positivity)] at l2
  generalize (Finset.univ.filter fun w => getF fl (.range lo hi) w < x).card = K at *
  have ea : ((x - lo) * 2 ^ 53 - 4 * hi) / (hi - lo) = (x - lo) / (hi - lo) * 2 ^ 53 - 4 * hi / (hi - lo) := by ring
  have eb : ((x - lo) * 2 ^ 53 + 4 * hi) / (hi - lo) = (x - lo) / (hi - lo) * 2 ^ 53 + 4 * hi / (hi - lo) := by ring
  rw [ea] at l1
  rw [eb] at l2
  have hc1 : (x - lo) / (hi - lo) ≤ 1 := by rw [div_le_one hd]; linarith
  have hc0 : 0 ≤ (x - lo) / (hi - lo) := by positivity
  have hm : 0 ≤ 4 * hi / (hi - lo) := by positivity
  generalize (x - lo) / (hi - lo) = c at *
  generalize 4 * hi / (hi - lo) = m at *
  have u1 : (K : ℚ) ≤ c * 2 ^ 53 + m + 1 := by
    have h1 : (K : ℚ) ≤ (⌊c * 2 ^ 53 + m⌋₊ : ℚ) + 1 := by exact_mod_cast l2.trans (min_le_right _ _)
    have h2 := Nat.floor_le (show 0 ≤ c * 2 ^ 53 + m by positivity)
    linarith
  have u2 : c * 2 ^ 53 - m ≤ K := by
    have h1 : c * 2 ^ 53 - m ≤ (⌈c * 2 ^ 53 - m⌉₊ : ℚ) := Nat.le_ceil _
    have h2 : c * 2 ^ 53 - m ≤ (cases : ℚ) := by rw [hN]; nlinarith
    calc _ ≤ min (cases : ℚ) (⌈c * 2 ^ 53 - m⌉₊ : ℚ) := le_min h2 h1
      _ ≤ K := by exact_mod_cast l1
  have e : (K : ℚ) / 2 ^ 53 - c = (K - c * 2 ^ 53) / 2 ^ 53 := by field_simp
  rw [e, abs_div, abs_of_pos (show (0 : ℚ) < 2 ^ 53 by norm_num)]
  refine div_le_div_of_nonneg_right ?_ (by norm_num)
  rw [abs_le]
  constructor <;> linarith

/-- C161: the status quo is kept with the documented chance to within `(2 m + 11)/2^53`, for a generation of `m` replacements. -/
theorem C161_status_quo {A : Arith} (hA : Good A) (rirs : List ℕ) (sqs : ℚ) (hs : 0 < sqs) :
    |(((Finset.univ.filter fun w => inquiry A rirs sqs w = true).card : ℕ) : ℝ) / 2 ^ 53 - chance ((total rirs / sqs : ℚ) : ℝ)| ≤
      (2 * rirs.length + 11 : ℝ) / 2 ^ 53 := by
  have hdec : ∀ w : Fin cases, ((rirs.length : ℝ) + 5) / 2 ^ 52 < |((w : ℕ) : ℝ) / 2 ^ 53 - chance ((total rirs / sqs : ℚ) : ℝ)| →
      (inquiry A rirs sqs w = true ↔ ((w : ℕ) : ℝ) / 2 ^ 53 < chance ((total rirs / sqs : ℚ) : ℝ)) := by
    intro w h
    have hu : draw w < 1 := by
      unfold draw
      rw [div_lt_one (by norm_num)]
      exact_mod_cast w.2
    have e : ((draw w : ℚ) : ℝ) = ((w : ℕ) : ℝ) / 2 ^ 53 := by unfold draw; push_cast; rfl
    have := ReplacementRounded.C160_decision hA rirs sqs (draw w) hs hu (by rw [e]; exact h)
    rw [e] at this
    exact this
  have hc0 : 0 ≤ chance ((total rirs / sqs : ℚ) : ℝ) := sq_nonneg _
  have hc1 : chance ((total rirs / sqs : ℚ) : ℝ) ≤ 1 := by
    unfold chance
    exact Real.sin_sq_le_one _
  generalize chance ((total rirs / sqs : ℚ) : ℝ) = c at *
  have hN : ((cases : ℕ) : ℝ) = 2 ^ 53 := by unfold cases; norm_num
  have hd : ((rirs.length : ℝ) + 5) / 2 ^ 52 = (2 * rirs.length + 10) / 2 ^ 53 := by ring
  rw [hd] at hdec
  have hm : (0 : ℝ) ≤ rirs.length := Nat.cast_nonneg _
  generalize (rirs.length : ℝ) = m at *
  have hlow : (Finset.univ.filter fun w : Fin cases => ((w : ℕ) : ℝ) < c * 2 ^ 53 - (2 * m + 10)) ⊆
      Finset.univ.filter fun w => inquiry A rirs sqs w = true := by
    intro w
    simp only [Finset.mem_filter, Finset.mem_univ, true_and]
    intro h
    have h' : ((w : ℕ) : ℝ) / 2 ^ 53 - c < -((2 * m + 10) / 2 ^ 53) := by
      rw [div_sub' (by norm_num), ← neg_div]
      exact div_lt_div_of_pos_right (by linarith) (by norm_num)
    have hp : 0 ≤ (2 * m + 10) / 2 ^ 53 := by positivity
    exact (hdec w (by rw [abs_of_neg (by linarith)]; linarith)).2 (by linarith)
  have hhigh : (Finset.univ.filter fun w => inquiry A rirs sqs w = true) ⊆
      Finset.univ.filter fun w : Fin cases => ((w : ℕ) : ℝ) ≤ c * 2 ^ 53 + (2 * m + 10) := by
    intro w
    simp only [Finset.mem_filter, Finset.mem_univ, true_and]
    intro hk
    by_contra h
    have h' : (2 * m + 10) / 2 ^ 53 < ((w : ℕ) : ℝ) / 2 ^ 53 - c := by
      rw [div_sub' (by norm_num)]
      exact div_lt_div_of_pos_right (by linarith) (by norm_num)
    have hp : 0 ≤ (2 * m + 10) / 2 ^ 53 := by positivity
    have := (hdec w (by rw [abs_of_pos (by linarith)]; exact h')).1 hk
    linarith
  have l1 := Finset.card_le_card hlow
  have l2 := Finset.card_le_card hhigh
  rw [count_lt] at l1
  rw [count_le _ _ (by positivity)] at l2
  have hK : (Finset.univ.filter fun w => inquiry A rirs sqs w = true).card ≤ cases := by
    have := Finset.card_le_univ (Finset.univ.filter fun w => inquiry A rirs sqs w = true)
    rwa [Fintype.card_fin] at this
  generalize (Finset.univ.filter fun w => inquiry A rirs sqs w = true).card = K at *
  have hKR : (K : ℝ) ≤ 2 ^ 53 := by rw [← hN]; exact_mod_cast hK
  have u1 : (K : ℝ) ≤ c * 2 ^ 53 + (2 * m + 10) + 1 := by
    have h1 : (K : ℝ) ≤ (⌊c * 2 ^ 53 + (2 * m + 10)⌋₊ : ℝ) + 1 := by exact_mod_cast l2.trans (min_le_right _ _)
    have h2 := Nat.floor_le (show 0 ≤ c * 2 ^ 53 + (2 * m + 10) by positivity)
    linarith
  have u2 : c * 2 ^ 53 - (2 * m + 10) ≤ K := by
    have h1 : c * 2 ^ 53 - (2 * m + 10) ≤ (⌈c * 2 ^ 53 - (2 * m + 10)⌉₊ : ℝ) := Nat.le_ceil _
    have h2 : c * 2 ^ 53 - (2 * m + 10) ≤ (cases : ℝ) := by rw [hN]; nlinarith
    calc _ ≤ min (cases : ℝ) (⌈c * 2 ^ 53 - (2 * m + 10)⌉₊ : ℝ) := le_min h2 h1
      _ ≤ K := by exact_mod_cast l1
  have e : (K : ℝ) / 2 ^ 53 - c = (K - c * 2 ^ 53) / 2 ^ 53 := by field_simp
  rw [e, abs_div, abs_of_pos (show (0 : ℝ) < 2 ^ 53 by norm_num)]
  refine div_le_div_of_nonneg_right ?_ (by norm_num)
  rw [abs_le]
  constructor <;> linarith

/-! ## Cases -/

/-- The random number `w / 2^53`. -/
def nth (w : ℕ) : Fin cases := ⟨w % cases, Nat.mod_lt _ (by norm_num [cases])⟩

example := C161_crossover round53_nearest (8 / 10) (by norm_num) (by norm_num)

/-- A crossover of three parameters. -/
example : crossover round53 (1 / 2) 0 ![nth 0, nth (2 ^ 52), nth (2 ^ 52 + 1)] ![1, 2, 3] ![4, 5, 6] = [4, 5, 3] := by decide +kernel

/-- Even with a `CR` of 0, a parameter other than the forced one is the mutant's in one of the `2^53` cases. -/
example : count round53 0 (0 : Fin 2) ![1, 2] ![3, 4] {0, 1} = 2 ^ 53 := by
  rw [count_product round53_nearest _ _ _ _ (by decide), count_draw 0 le_rfl]
  simp [cases]

example := C161_always round53_nearest 1 ![nth 5, nth 6, nth 7] ![1, 2, 3] ![4, 5, 6]

example := C161_mutation_factor round53_nearest (1 / 2) 1 (3 / 4) (by norm_num) (by norm_num) (by norm_num) (by norm_num)

example := C161_status_quo ReplacementRounded.exArith_good [0, 1, 2] 3 (by norm_num)

end MachineRandom
end Ade
