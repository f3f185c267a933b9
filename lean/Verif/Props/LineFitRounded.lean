import Verif.Model.LineFitRounded
import Verif.Props.QueryRounded

/-!
# C164: the weights of the line fit in single precision
-/

set_option autoImplicit false

namespace Ade
namespace LineFitRounded

open Single (toSingle mag mag_mono mag_nonneg mag_rel mag_abs limit mag_overflow)
open QueryRounded (toSingle_nonneg)

/-! ## Lemmas -/

theorem toSingle_small {q : ℚ} (h0 : 0 ≤ q) (h : q < limit) : toSingle (.fin q) = .fin (mag q) := by
  rw [toSingle_nonneg h0, if_neg (fun h' => absurd ((mag_overflow h0).1 h') (not_le.2 h))]

theorem toSingle_large {q : ℚ} (h : limit ≤ q) : toSingle (.fin q) = .pinf := by
  have h0 : 0 ≤ q := le_trans (by unfold limit; norm_num) h
  rw [toSingle_nonneg h0, if_pos ((mag_overflow h0).2 h)]

theorem mag_one : mag 1 = 1 := by decide +kernel

theorem mag_tiny : mag (1 / 2 ^ 149) = 1 / 2 ^ 149 := by decide +kernel

theorem mag_pos {a : ℚ} (h : 1 / 2 ^ 149 ≤ a) : 0 < mag a :=
  lt_of_lt_of_le (by rw [mag_tiny]; positivity) (mag_mono (by positivity) h)

theorem one_lt_limit : (1 : ℚ) < limit := by unfold limit; norm_num

/-- The weight, as long as nothing overflows. -/
theorem weight_fin {best s : ℚ} (hb : 1 / 2 ^ 149 ≤ best) (hs : best ≤ s) (hl : s + best < limit) :
    weight best s = .fin (mag (mag (2 * best) / mag (s + best))) ∧
      0 ≤ mag (2 * best) / mag (s + best) ∧ mag (2 * best) / mag (s + best) ≤ 1 ∧ 0 < mag (s + best) := by
  have hb0 : 0 < best := lt_of_lt_of_le (by positivity) hb
  have hd : 0 < mag (s + best) := mag_pos (by linarith)
  have hq0 : 0 ≤ mag (2 * best) / mag (s + best) := div_nonneg (mag_nonneg _) hd.le
  have hq1 : mag (2 * best) / mag (s + best) ≤ 1 := (div_le_one hd).2 (mag_mono (by linarith) (by linarith))
  refine ⟨?_, hq0, hq1, hd⟩
  rw [weight, toSingle_small (by linarith) (by linarith), toSingle_small (by linarith) hl]
  simp only [divide]
  rw [if_neg hd.ne', toSingle_small hq0 (lt_of_le_of_lt hq1 one_lt_limit)]

theorem weight_over {best s : ℚ} (hb : 0 ≤ best) (hl : limit ≤ s + best) (h2 : 2 * best < limit) : weight best s = .fin 0 := by
  rw [weight, toSingle_small (by linarith) h2, toSingle_large hl]
  rfl

/-! ## Theorems -/

/-- C164: the best record has weight exactly one, if twice the best score is neither too large for a float32 nor zero. -/
theorem C164_best_partial (best : ℚ) (hb : 1 / 2 ^ 149 ≤ best) (hl : 2 * best < limit) : weight best best = .fin 1 := by
  have hb0 : 0 < best := lt_of_lt_of_le (by positivity) hb
  obtain ⟨h, _, _, hd⟩ := weight_fin hb le_rfl (by linarith)
  rw [h, ← two_mul, div_self (by rw [two_mul]; exact hd.ne'), mag_one]

/-- C164: every other weight is a number from zero to one, and a record with a higher score has no higher weight. -/
theorem C164_order_partial (best s s' : ℚ) (hb : 1 / 2 ^ 149 ≤ best) (hl : 2 * best < limit) (hs : best ≤ s) (hs' : s ≤ s') :
    ∃ w w', weight best s = .fin w ∧ weight best s' = .fin w' ∧ 0 ≤ w' ∧ w' ≤ w ∧ w ≤ 1 := by
  have hb0 : 0 < best := lt_of_lt_of_le (by positivity) hb
  rcases lt_or_ge (s + best) limit with h | h
  · obtain ⟨e, p, q, d⟩ := weight_fin hb hs h
    have hw1 : mag (mag (2 * best) / mag (s + best)) ≤ 1 := (mag_mono p q).trans_eq mag_one
    rcases lt_or_ge (s' + best) limit with h' | h'
    · obtain ⟨e', p', q', d'⟩ := weight_fin hb (hs.trans hs') h'
      refine ⟨_, _, e, e', mag_nonneg _, mag_mono p' ?_, hw1⟩
      exact div_le_div_of_nonneg_left (mag_nonneg _) d (mag_mono (by linarith) (by linarith))
    · exact ⟨_, 0, e, weight_over hb0.le h' hl, le_rfl, mag_nonneg _, hw1⟩
  · exact ⟨0, 0, weight_over hb0.le h hl, weight_over hb0.le (by linarith) hl, le_rfl, le_rfl, zero_le_one⟩

theorem close_quotient {a b a' b' u : ℚ} (ha : 0 < a) (hb : 0 < b) (hu : u = 1 / 2 ^ 24) (h1 : |a' - a| ≤ a / 2 ^ 24)
    (h2 : |b' - b| ≤ b / 2 ^ 24) : 0 < b' ∧ a / b * (1 - 2 * u) ≤ a' / b' ∧ a' / b' ≤ a / b * (1 + 2 * u + 4 * u ^ 2) := by
  obtain ⟨l1, r1⟩ := abs_le.1 h1
  obtain ⟨l2, r2⟩ := abs_le.1 h2
  have hb' : 0 < b' := by linarith
  refine ⟨hb', ?_, ?_⟩
  · rw [le_div_iff₀ hb']
    calc a / b * (1 - 2 * u) * b' ≤ a / b * (1 - 2 * u) * (b * (1 + u)) := by
          apply mul_le_mul_of_nonneg_left
          · rw [hu]; linarith
          · apply mul_nonneg (div_pos ha hb).le; rw [hu]; norm_num
      _ = a * ((1 - 2 * u) * (1 + u)) := by field_simp
      _ ≤ a * (1 - u) := mul_le_mul_of_nonneg_left (by rw [hu]; norm_num) ha.le
      _ ≤ a' := by rw [hu]; linarith
  · rw [div_le_iff₀ hb']
    calc a' ≤ a * (1 + u) := by rw [hu]; linarith
      _ ≤ a * ((1 + 2 * u + 4 * u ^ 2) * (1 - u)) := mul_le_mul_of_nonneg_left (by rw [hu]; norm_num) ha.le
      _ = a / b * (1 + 2 * u + 4 * u ^ 2) * (b * (1 - u)) := by field_simp
      _ ≤ a / b * (1 + 2 * u + 4 * u ^ 2) * b' := by
          apply mul_le_mul_of_nonneg_left
          · rw [hu]; linarith
          · apply mul_nonneg (div_pos ha hb).le; rw [hu]; norm_num

/-- C164: with scores in the normal range of float32 and no more than a factor of `2^120` apart, the weight is positive and differs
from `2*best / (s + best)` by less than one part in four million. -/
theorem C164_accurate_partial (best s : ℚ) (hb : 1 / 2 ^ 126 ≤ best) (hs : best ≤ s) (hl : s + best < limit)
    (hr : s ≤ 2 ^ 120 * best) :
    ∃ w, weight best s = .fin w ∧ 0 < w ∧ |w - 2 * best / (s + best)| ≤ 2 * best / (s + best) / 2 ^ 22 := by
  have hb0 : 0 < best := lt_of_lt_of_le (by positivity) hb
  obtain ⟨e, p, q, d⟩ := weight_fin (le_trans (by norm_num) hb) hs hl
  have hx : 0 < 2 * best / (s + best) := div_pos (by linarith) (by linarith)
  have hxl : 1 / 2 ^ 120 ≤ 2 * best / (s + best) := by
    rw [div_le_div_iff₀ (by positivity) (by linarith)]
    linarith
  obtain ⟨_, c1, c2⟩ := close_quotient (a := 2 * best) (b := s + best) (by linarith) (by linarith) rfl
    (mag_rel (by linarith)) (mag_rel (by linarith))
  generalize mag (2 * best) / mag (s + best) = y at *
  generalize 2 * best / (s + best) = x at *
  have hy : 1 / 2 ^ 121 ≤ y := by
    refine le_trans ?_ c1
    calc (1 : ℚ) / 2 ^ 121 ≤ 1 / 2 ^ 120 * (1 - 2 * (1 / 2 ^ 24)) := by norm_num
      _ ≤ _ := mul_le_mul_of_nonneg_right hxl (by norm_num)
  have e3 := abs_le.1 (mag_rel (le_trans (by norm_num) hy))
  refine ⟨_, e, mag_pos (le_trans (by norm_num) hy), ?_⟩
  generalize mag y = w at *
  norm_num at c1 c2 e3
  rw [abs_le]
  norm_num
  constructor <;> linarith [e3.1, e3.2]

/-- C164: the weights of all records: there is one for each, in their order, some record has weight one, all weights are numbers
from zero to one, and those of records in the range of `C164_accurate_partial` are as accurate as there. -/
theorem C164_all_partial (S : List ℚ) (hS : S ≠ []) (hb : ∀ s ∈ S, 1 / 2 ^ 149 ≤ s) (hl : ∀ s ∈ S, 2 * s < limit) :
    ∃ best ∈ S, (∀ s ∈ S, best ≤ s) ∧ ∃ W, weights S = some W ∧ W.length = S.length ∧ PyFloat.fin 1 ∈ W ∧
      ∀ i (h : i < S.length), ∃ w, W[i]? = some (.fin w) ∧ 0 ≤ w ∧ w ≤ 1 ∧ (S[i] = best → w = 1) ∧
        (1 / 2 ^ 126 ≤ best → S[i] ≤ 2 ^ 120 * best → |w - 2 * best / (S[i] + best)| ≤ 2 * best / (S[i] + best) / 2 ^ 22) := by
  obtain ⟨a, l, rfl⟩ := List.exists_cons_of_ne_nil hS
  have hmin : ∀ (l : List ℚ) (a : ℚ), l.foldl min a ∈ a :: l ∧ ∀ s ∈ a :: l, l.foldl min a ≤ s := by
    intro l
    induction l with
    | nil => intro a; simp
    | cons b l ih =>
      intro a
      obtain ⟨h1, h2⟩ := ih (min a b)
      rw [List.foldl_cons]
      refine ⟨?_, ?_⟩
      · rcases List.mem_cons.1 h1 with h | h
        · rw [h]
          rcases min_choice a b with h | h <;> rw [h] <;> simp
        · simp [h]
      · intro s hs
        have h3 := h2 (min a b) (by simp)
        simp only [List.mem_cons] at hs
        rcases hs with rfl | rfl | hs
        · exact h3.trans (min_le_left _ _)
        · exact h3.trans (min_le_right _ _)
        · exact h2 s (by simp [hs])
  obtain ⟨h1, h2⟩ := hmin l a
  have hone := C164_best_partial _ (hb _ h1) (hl _ h1)
  refine ⟨l.foldl min a, h1, h2, _, rfl, by simp, List.mem_map.2 ⟨_, h1, hone⟩, ?_⟩
  intro i hi
  have hm := List.getElem_mem hi
  obtain ⟨w, w', e, e', p, q, r⟩ := C164_order_partial _ _ _ (hb _ h1) (hl _ h1) (h2 _ hm) le_rfl
  refine ⟨w, ?_, p.trans q, r, ?_, ?_⟩
  · rw [List.getElem?_map, List.getElem?_eq_getElem hi, Option.map_some, e]
  · intro h
    rw [h, hone] at e
    exact (PyFloat.fin.inj e).symm
  · intro h126 h120
    obtain ⟨v, hv, -, h⟩ := C164_accurate_partial _ _ h126 (h2 _ hm) (by linarith [hl _ hm, h2 _ hm]) h120
    rw [e] at hv
    rw [PyFloat.fin.inj hv]
    exact h

/-- C164 fails for very large scores: from `2^127` on, the best record has no weight at all. -/
theorem C164_too_large (best : ℚ) (hl : limit ≤ 2 * best) : weight best best = .nan := by
  rw [weight, toSingle_large hl, toSingle_large (by linarith)]
  rfl

/-- C164 fails for a perfect best score: its record has no weight, and every other one has weight zero. -/
theorem C164_perfect (s : ℚ) (hs : 1 / 2 ^ 149 ≤ s) (hl : s < limit) : weight 0 0 = .nan ∧ weight 0 s = .fin 0 := by
  have hs0 : 0 ≤ s := le_trans (by positivity) hs
  refine ⟨by decide +kernel, ?_⟩
  have hz : toSingle (.fin (2 * 0)) = .fin 0 := by decide +kernel
  rw [weight, hz, add_zero, toSingle_small hs0 hl]
  simp only [divide]
  rw [if_neg (mag_pos hs).ne', zero_div]
  decide +kernel

example := C164_best_partial 3 (by norm_num) (by unfold limit; norm_num)
example := C164_order_partial 3 7 9 (by norm_num) (by unfold limit; norm_num) (by norm_num) (by norm_num)
example := C164_accurate_partial 3 7 (by norm_num) (by norm_num) (by unfold limit; norm_num) (by norm_num)
example := C164_all_partial [7, 3, 9] (by simp) (by intro s hs; simp only [List.mem_cons, List.not_mem_nil, or_false] at hs; rcases hs with rfl | rfl | rfl <;> norm_num)
  (by intro s hs; simp only [List.mem_cons, List.not_mem_nil, or_false] at hs; rcases hs with rfl | rfl | rfl <;> unfold limit <;> norm_num)
example := C164_too_large (2 ^ 127) (by unfold limit; norm_num)
example := C164_perfect 3 (by norm_num) (by unfold limit; norm_num)
/-- Three records: the best has weight one, and `6/10` is rounded to 24 bits. -/
example : weights [7, 3, 9] = some [.fin (mag (6 / 10)), .fin 1, .fin (1 / 2)] := by decide +kernel
example : mag (6 / 10) ≠ 6 / 10 := by decide +kernel

end LineFitRounded
end Ade
