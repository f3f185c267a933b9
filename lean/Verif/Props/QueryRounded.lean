import Verif.Model.QueryRounded
import Verif.Props.Analysis
import Verif.Props.Single
import Mathlib.Tactic.Linarith

/-!
# C156: queries of the history by score ratio in single precision
-/

set_option autoImplicit false

namespace Ade
namespace QueryRounded

open Analysis (Mode selectRows Wanted)
open Single (toSingle mag mag_mono mag_nonneg mag_rel mag_abs)

/-! ## Rounding -/

theorem toSingle_nonneg {q : ℚ} (h : 0 ≤ q) : toSingle (.fin q) = if 2 ^ 128 ≤ mag q then .pinf else .fin (mag q) := by
  simp only [toSingle, abs_of_nonneg h, if_neg (not_lt.2 h)]

theorem within_of_le {best x r : ℚ} (hb : 0 < best) (hx : 0 ≤ x) (h : x ≤ r * best) : withinRatio best x r = true := by
  have hq : x / best ≤ r := (div_le_iff₀ hb).2 h
  have hq0 : 0 ≤ x / best := div_nonneg hx hb.le
  have hm := mag_mono hq0 hq
  rw [withinRatio, if_neg hb.ne', toSingle_nonneg hq0, toSingle_nonneg (hq0.trans hq)]
  split_ifs with h1 h2 h2
  · rfl
  · exact absurd (h1.trans hm) h2
  · rfl
  · rcases hm.lt_or_eq with h | h <;> simp [PyFloat.le, PyFloat.lt, PyFloat.eq, h]

theorem le_of_within {best x r : ℚ} (hb : 0 < best) (hx : best ≤ x) (hr0 : 0 ≤ r) (hr : r < Single.limit)
    (h : withinRatio best x r = true) : x ≤ r * best * (1 + 1 / 2 ^ 22) := by
  have hq1 : 1 ≤ x / best := (one_le_div hb).2 hx
  have hq0 : 0 ≤ x / best := le_trans zero_le_one hq1
  have hx' : x = x / best * best := (div_mul_cancel₀ _ hb.ne').symm
  have hrm : ¬ 2 ^ 128 ≤ mag r := by rw [Single.mag_overflow hr0]; exact not_le.2 hr
  rw [withinRatio, if_neg hb.ne', toSingle_nonneg hq0, toSingle_nonneg hr0, if_neg hrm] at h
  have hle : mag (x / best) ≤ mag r := by
    split_ifs at h with h1
    · simp [PyFloat.le, PyFloat.lt, PyFloat.eq] at h
    · simp only [PyFloat.le, PyFloat.lt, PyFloat.eq, Bool.or_eq_true, decide_eq_true_eq] at h
      exact h.elim le_of_lt le_of_eq
  generalize x / best = q at *
  have h126 : (1 : ℚ) / 2 ^ 126 ≤ 1 := by norm_num
  have e1 := abs_le.1 (mag_rel (h126.trans hq1))
  have key : q ≤ r * (1 + 1 / 2 ^ 22) := by
    rcases lt_or_ge r (1 / 2 ^ 126) with hs | hs
    · exfalso
      have e2 := abs_le.1 (mag_abs hr0 hs)
      have : (1 : ℚ) / 2 ^ 126 + 1 / 2 ^ 150 < 1 / 2 := by norm_num
      have : q / 2 ^ 24 ≤ q / 2 := div_le_div_of_nonneg_left hq0 (by norm_num) (by norm_num)
      linarith [e1.1, e2.2]
    · have e2 := abs_le.1 (mag_rel hs)
      have a : q - q / 2 ^ 24 ≤ r + r / 2 ^ 24 := by linarith [e1.1, e2.2]
      norm_num at a ⊢
      linarith
  calc x = q * best := hx'
    _ ≤ r * (1 + 1 / 2 ^ 22) * best := mul_le_mul_of_nonneg_right key hb.le
    _ = _ := by ring

theorem mem_query {sse : Nat → ℚ} {k0 : Nat} {ks : List Nat} {Kp Kn : Finset Nat} {m : Mode} {r : ℚ} {R : List Nat}
    (hR : queryRows sse (k0 :: ks) Kp Kn m r = some R) (k : Nat) :
    k ∈ R ↔ (k ∈ k0 :: ks ∧ Wanted Kp Kn m k) ∧ withinRatio (sse k0) (sse k) r = true := by
  have e : k ∈ selectRows (k0 :: ks) Kp Kn m ↔ k ∈ k0 :: ks ∧ Wanted Kp Kn m k := by
    cases m <;> simp [selectRows, Wanted]
  simp only [queryRows, Option.some.injEq] at hR
  rw [← hR, List.mem_filter, e]

/-! ## Theorems -/

/-- C156: no record of the requested membership whose score is at most `maxRatio` times the best score is left out. -/
theorem C156_none_left_out (sse : Nat → ℚ) (k0 : Nat) (ks : List Nat) (Kp Kn : Finset Nat) (m : Mode) (maxRatio : ℚ)
    (hpos : 0 < sse k0) (R : List Nat) (hR : queryRows sse (k0 :: ks) Kp Kn m maxRatio = some R) (k : Nat)
    (hk : k ∈ k0 :: ks) (hw : Wanted Kp Kn m k) (h0 : 0 ≤ sse k) (h : sse k ≤ maxRatio * sse k0) : k ∈ R :=
  (mem_query hR k).2 ⟨⟨hk, hw⟩, within_of_le hpos h0 h⟩

/-- C156: the records returned are of the requested membership, and their scores are at most `maxRatio` times the best score but
for rounding, which is one part in `2^22`. -/
theorem C156_returned (sse : Nat → ℚ) (k0 : Nat) (ks : List Nat) (Kp Kn : Finset Nat) (m : Mode) (maxRatio : ℚ)
    (hpos : 0 < sse k0) (hbest : ∀ k ∈ ks, sse k0 ≤ sse k) (hr0 : 0 ≤ maxRatio) (hr : maxRatio < 2 ^ 128 - 2 ^ 103)
    (R : List Nat) (hR : queryRows sse (k0 :: ks) Kp Kn m maxRatio = some R) (k : Nat) (hk : k ∈ R) :
    k ∈ k0 :: ks ∧ Wanted Kp Kn m k ∧ sse k ≤ maxRatio * sse k0 * (1 + 1 / 2 ^ 22) := by
  obtain ⟨⟨h1, h2⟩, h3⟩ := (mem_query hR k).1 hk
  refine ⟨h1, h2, le_of_within hpos ?_ hr0 hr h3⟩
  rcases List.mem_cons.1 h1 with rfl | h
  · exact le_rfl
  · exact hbest k h

/-- C156: with a ratio of one, the records returned are those with the best score, provided all scores are float32 numbers that are
not too small, as in the history. -/
theorem C156_ratio_one (sse : Nat → ℚ) (k0 : Nat) (ks : List Nat) (Kp Kn : Finset Nat) (m : Mode)
    (hpos : 0 < sse k0) (hbest : ∀ k ∈ ks, sse k0 ≤ sse k)
    (hf : ∀ k ∈ k0 :: ks, ∃ (n : ℕ) (e : ℤ), 2 ^ 23 ≤ n ∧ n < 2 ^ 24 ∧ sse k = n * 2 ^ e)
    (R : List Nat) (hR : queryRows sse (k0 :: ks) Kp Kn m 1 = some R) (k : Nat) :
    k ∈ R ↔ k ∈ k0 :: ks ∧ Wanted Kp Kn m k ∧ sse k = sse k0 := by
  rw [mem_query hR k, and_assoc]
  refine and_congr_right fun hk => and_congr_right fun _ => ?_
  constructor
  · intro h
    have hge : sse k0 ≤ sse k := by
      rcases List.mem_cons.1 hk with rfl | h
      · exact le_rfl
      · exact hbest k h
    refine le_antisymm ?_ hge
    by_contra hlt
    push Not at hlt
    -- the quotient of different numbers is above one by more than half a unit of the last place
    obtain ⟨n, e, hn1, hn2, hn⟩ := hf k0 (by simp)
    obtain ⟨n', e', hn1', hn2', hn'⟩ := hf k hk
    have hpe : (0 : ℚ) < 2 ^ e := by positivity
    have hpe' : (0 : ℚ) < 2 ^ e' := by positivity
    have hee : e ≤ e' := by
      by_contra hc
      push Not at hc
      have h1 : (2 : ℚ) ^ (e' + 1) ≤ 2 ^ e := zpow_le_zpow_right₀ (by norm_num) (by omega)
      rw [zpow_add_one₀ (by norm_num)] at h1
      have h2 : (n' : ℚ) < 2 ^ 24 := by exact_mod_cast hn2'
      have h3 : (2 : ℚ) ^ 23 ≤ n := by exact_mod_cast hn1
      have h4 : sse k < 2 ^ 24 * 2 ^ e' := by rw [hn']; exact mul_lt_mul_of_pos_right h2 hpe'
      have h5 : (2 : ℚ) ^ 23 * 2 ^ e ≤ sse k0 := by rw [hn]; exact mul_le_mul_of_nonneg_right h3 hpe.le
      linarith
    obtain ⟨d, hd⟩ := Int.eq_ofNat_of_zero_le (sub_nonneg.2 hee)
    have he' : e' = e + d := by omega
    have hpow : (2 : ℚ) ^ e' = 2 ^ d * 2 ^ e := by rw [he', zpow_add₀ (by norm_num), zpow_natCast]; ring
    have hstep : (n : ℚ) + 1 ≤ n' * 2 ^ d := by
      have : (n : ℚ) < n' * 2 ^ d := by
        have h1 := hlt
        rw [hn, hn', hpow, ← mul_assoc] at h1
        exact lt_of_mul_lt_mul_right h1 hpe.le
      exact_mod_cast this
    have hq : (n + 1 : ℚ) / n ≤ sse k / sse k0 := by
      have hn0 : (0 : ℚ) < n := by
        have : 0 < n := lt_of_lt_of_le (by norm_num) hn1
        exact_mod_cast this
      rw [hn, hn', hpow, div_le_div_iff₀ hn0 (mul_pos hn0 hpe)]
      calc (n + 1 : ℚ) * (n * 2 ^ e) ≤ (n' * 2 ^ d) * (n * 2 ^ e) :=
            mul_le_mul_of_nonneg_right hstep (mul_pos hn0 hpe).le
        _ = _ := by ring
    have hn0 : (0 : ℚ) < n := by
      have : 0 < n := lt_of_lt_of_le (by norm_num) hn1
      exact_mod_cast this
    have hgt : 1 + 1 / 2 ^ 24 < (n + 1 : ℚ) / n := by
      rw [lt_div_iff₀ hn0]
      have : (n : ℚ) < 2 ^ 24 := by exact_mod_cast hn2
      have : (n : ℚ) / 2 ^ 24 < 1 := by rw [div_lt_one (by positivity)]; exact this
      have e1 : (1 + 1 / 2 ^ 24 : ℚ) * n = n + n / 2 ^ 24 := by ring
      rw [e1]; linarith
    have hq0 : 0 ≤ sse k / sse k0 := le_trans (by positivity) hq
    rw [withinRatio, if_neg hpos.ne', toSingle_nonneg hq0, show toSingle (.fin 1) = .fin 1 by decide +kernel] at h
    have hle : mag (sse k / sse k0) ≤ 1 := by
      split_ifs at h with h1
      · simp [PyFloat.le, PyFloat.lt, PyFloat.eq] at h
      · simp only [PyFloat.le, PyFloat.lt, PyFloat.eq, Bool.or_eq_true, decide_eq_true_eq] at h
        exact h.elim le_of_lt le_of_eq
    have hz : Single.Float32 (1 + 1 / 2 ^ 23) := ⟨2 ^ 23 + 1, -23, by norm_num, by norm_num, by norm_num, by norm_num⟩
    have hnear := Single.mag_nearest hq0 hz
    have hlt2 := lt_of_lt_of_le hgt hq
    generalize sse k / sse k0 = q at *
    rw [abs_of_nonneg (by linarith)] at hnear
    rcases abs_cases (q - (1 + 1 / 2 ^ 23)) with ⟨h1, h2⟩ | ⟨h1, h2⟩
    · rw [h1] at hnear
      norm_num at h2 hnear hlt2 hle
      linarith
    · rw [h1] at hnear
      norm_num at h2 hnear hlt2 hle
      linarith
  · intro h
    exact within_of_le hpos (by rw [h]; exact hpos.le) (by rw [h, one_mul])

/-! ## Cases -/

/-- Scores 0.1, 0.3 and 0.3 and a bit, in single precision. -/
def exScores : Nat → ℚ := fun k =>
  if k = 0 then mag (1 / 10) else if k = 1 then mag (3 / 10) else mag (3 / 10 + 1 / 10 ^ 7)

/-- The score of row 1 is above three times the best score, in exact arithmetic. -/
example : queryRows exScores [0, 1, 2] ∅ ∅ .all 3 = some [0, 1] ∧ queryRows exScores [0, 1, 2] {1} ∅ .inPop 3 = some [1] ∧
    queryRows exScores [0, 1, 2] ∅ ∅ .all 1 = some [0] ∧ 3 * exScores 0 < exScores 1 := by decide +kernel

example := C156_none_left_out exScores 0 [1, 2] ∅ ∅ .all 4 (by decide +kernel) [0, 1, 2] (by decide +kernel) 2 (by decide)
  trivial (by decide +kernel) (by decide +kernel)

example := C156_returned exScores 0 [1, 2] ∅ ∅ .all 3 (by decide +kernel) (by decide +kernel) (by decide +kernel) (by decide +kernel)
  [0, 1] (by decide +kernel) 1 (by decide)

example := C156_ratio_one (fun k => (2 ^ 23 + k % 2 : ℕ)) 0 [2, 1] ∅ ∅ .all (by decide +kernel)
  (by decide +kernel)
  (by intro k hk
      refine ⟨2 ^ 23 + k % 2, 0, by omega, by omega, by simp⟩)
  [0, 2] (by decide +kernel) 2

end QueryRounded
end Ade
