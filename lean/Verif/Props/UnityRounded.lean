import Verif.Model.UnityRounded
import Verif.Props.RelationsRounded

/-!
# C157: scaling to the unit cube, and the stars, in spite of rounding
-/

set_option autoImplicit false

namespace Ade
namespace UnityRounded

open RatioRounded (RoundsToNearest round53 round53_nearest fl_mono fl_self)
open RelationsRounded (rounding_error_abs fl_eq_zero)

/-! ## Rounding errors -/

theorem err {fl : ℚ → ℚ} (hfl : RoundsToNearest fl) {x : ℚ} (hx : 0 ≤ x) : x - x / 2 ^ 53 ≤ fl x ∧ fl x ≤ x + x / 2 ^ 53 := by
  have := abs_le.1 (rounding_error_abs hfl x)
  rw [abs_of_nonneg hx] at this
  constructor <;> linarith [this.1, this.2]

theorem fl_pos {fl : ℚ → ℚ} (hfl : RoundsToNearest fl) {x : ℚ} (hx : 0 < x) : 0 < fl x := by
  have := (err hfl hx.le).1
  have : x / 2 ^ 53 < x := div_lt_self hx (by norm_num)
  linarith

theorem scale_pos {fl : ℚ → ℚ} (hfl : RoundsToNearest fl) {lo hi : ℚ} (h : lo < hi) : 0 < scale fl lo hi :=
  fl_pos hfl (sub_pos.2 h)

theorem fl_nonneg {fl : ℚ → ℚ} (hfl : RoundsToNearest fl) {x : ℚ} (hx : 0 ≤ x) : 0 ≤ fl x := by
  rcases hx.eq_or_lt with rfl | h
  · rw [fl_self hfl (Rounding.repr_zero 53)]
  · exact (fl_pos hfl h).le

/-- The scaled value times the true scale. -/
theorem unity_err {fl : ℚ → ℚ} (hfl : RoundsToNearest fl) {lo hi v : ℚ} (h : lo < hi) (hv : lo ≤ v) :
    (v - lo) - (v - lo) / 2 ^ 51 ≤ toUnity fl lo hi v * (hi - lo) ∧
      toUnity fl lo hi v * (hi - lo) ≤ (v - lo) + (v - lo) / 2 ^ 51 := by
  have hs : 0 < hi - lo := sub_pos.2 h
  have hd : 0 ≤ v - lo := sub_nonneg.2 hv
  have hS := scale_pos hfl h
  have eS := err hfl hs.le
  have eD := err hfl hd
  have hD := fl_nonneg hfl hd
  have eU := err hfl (div_nonneg hD hS.le)
  have hU : 0 ≤ toUnity fl lo hi v := fl_nonneg hfl (div_nonneg hD hS.le)
  change _ ≤ toUnity fl lo hi v ∧ toUnity fl lo hi v ≤ _ at eU
  change _ ≤ scale fl lo hi ∧ scale fl lo hi ≤ _ at eS
  generalize toUnity fl lo hi v = U at *
  generalize scale fl lo hi = S at *
  generalize fl (v - lo) = D at *
  generalize v - lo = d at *
  generalize hi - lo = s at *
  have hDS : D / S * S = D := div_mul_cancel₀ _ hS.ne'
  have u1 := mul_le_mul_of_nonneg_right eU.1 hS.le
  have u2 := mul_le_mul_of_nonneg_right eU.2 hS.le
  rw [show (D / S - D / S / 2 ^ 53) * S = D / S * S - D / S * S / 2 ^ 53 by ring, hDS] at u1
  rw [show (D / S + D / S / 2 ^ 53) * S = D / S * S + D / S * S / 2 ^ 53 by ring, hDS] at u2
  have s1 := mul_le_mul_of_nonneg_left eS.1 hU
  have s2 := mul_le_mul_of_nonneg_left eS.2 hU
  rw [show U * (s - s / 2 ^ 53) = U * s - U * s / 2 ^ 53 by ring] at s1
  rw [show U * (s + s / 2 ^ 53) = U * s + U * s / 2 ^ 53 by ring] at s2
  obtain ⟨d1, d2⟩ := eD
  have hw : 0 ≤ U * s := mul_nonneg hU hs.le
  generalize U * s = w at *
  generalize U * S = W at *
  clear eU eS hDS
  norm_num at *
  constructor <;> linarith

/-! ## Theorems -/

/-- C157: values within the bounds are scaled to numbers from 0 to 1, exactly 0 for the lower bound only, and exactly 1 for the upper
bound. -/
theorem C157_within {fl : ℚ → ℚ} (hfl : RoundsToNearest fl) (lo hi v : ℚ) (h : lo < hi) (h1 : lo ≤ v) (h2 : v ≤ hi) :
    0 ≤ toUnity fl lo hi v ∧ toUnity fl lo hi v ≤ 1 ∧ (toUnity fl lo hi v = 0 ↔ v = lo) ∧ toUnity fl lo hi hi = 1 := by
  have hS := scale_pos hfl h
  have hd : 0 ≤ v - lo := sub_nonneg.2 h1
  have hD := fl_nonneg hfl hd
  have one : fl 1 = 1 := fl_self hfl RatioRounded.repr_one
  refine ⟨fl_nonneg hfl (div_nonneg hD hS.le), ?_, ?_, ?_⟩
  · have : fl (v - lo) / scale fl lo hi ≤ 1 := by
      rw [div_le_one hS]
      exact fl_mono hfl (by linarith)
    have := fl_mono hfl this
    rw [one] at this
    exact this
  · rw [toUnity, fl_eq_zero hfl, div_eq_zero_iff, or_iff_left hS.ne', fl_eq_zero hfl, sub_eq_zero]
  · rw [toUnity, scale, div_self]
    · exact one
    · exact hS.ne'

/-- C157: scaling keeps the order of values. -/
theorem C157_order {fl : ℚ → ℚ} (hfl : RoundsToNearest fl) (lo hi v v' : ℚ) (h : lo < hi) (hv : v ≤ v') :
    toUnity fl lo hi v ≤ toUnity fl lo hi v' := by
  apply fl_mono hfl
  apply div_le_div_of_nonneg_right _ (scale_pos hfl h).le
  exact fl_mono hfl (by linarith)

/-- C157: the scaled value is accurate to four roundings. -/
theorem C157_accurate {fl : ℚ → ℚ} (hfl : RoundsToNearest fl) (lo hi v : ℚ) (h : lo < hi) (hv : lo ≤ v) :
    |toUnity fl lo hi v - (v - lo) / (hi - lo)| ≤ (v - lo) / (hi - lo) / 2 ^ 51 := by
  have hs : 0 < hi - lo := sub_pos.2 h
  obtain ⟨h1, h2⟩ := unity_err hfl h hv
  have e : (v - lo) / (hi - lo) * (hi - lo) = v - lo := div_mul_cancel₀ _ hs.ne'
  generalize (v - lo) / (hi - lo) = q at *
  rw [← e] at h1 h2
  rw [abs_le]
  constructor
  · have : (q - q / 2 ^ 51) * (hi - lo) ≤ toUnity fl lo hi v * (hi - lo) := by
      rw [sub_mul, div_mul_eq_mul_div]; exact h1
    have := le_of_mul_le_mul_right this hs
    linarith
  · have : toUnity fl lo hi v * (hi - lo) ≤ (q + q / 2 ^ 51) * (hi - lo) := by
      rw [add_mul, div_mul_eq_mul_div]; exact h2
    have := le_of_mul_le_mul_right this hs
    linarith

/-- C157: scaling to the unit cube and back gives the value but for rounding: one rounding of its own size and four of its distance
from the lower bound, and the lower bound exactly. -/
theorem C157_round_trip {fl : ℚ → ℚ} (hfl : RoundsToNearest fl) (lo hi v : ℚ) (h : lo < hi) (hv : lo ≤ v) :
    |fromUnity fl lo hi (toUnity fl lo hi v) - v| ≤ (|v| + 4 * (v - lo)) / 2 ^ 53 ∧
      (Rounding.Repr 53 lo → fromUnity fl lo hi (toUnity fl lo hi lo) = lo) := by
  have hS := scale_pos hfl h
  constructor
  · have hd : 0 ≤ v - lo := sub_nonneg.2 hv
    have eD := err hfl hd
    have hD := fl_nonneg hfl hd
    have eU := err hfl (div_nonneg hD hS.le)
    have hU : 0 ≤ toUnity fl lo hi v := fl_nonneg hfl (div_nonneg hD hS.le)
    have eP := err hfl (mul_nonneg hS.le hU)
    unfold fromUnity
    simp only
    have eR := rounding_error_abs hfl (lo + fl (scale fl lo hi * toUnity fl lo hi v))
    change _ ≤ toUnity fl lo hi v ∧ toUnity fl lo hi v ≤ _ at eU
    generalize fl (lo + fl (scale fl lo hi * toUnity fl lo hi v)) = R at *
    generalize fl (scale fl lo hi * toUnity fl lo hi v) = P at *
    generalize toUnity fl lo hi v = U at *
    generalize scale fl lo hi = S at *
    generalize fl (v - lo) = D at *
    have hDS : D / S * S = D := div_mul_cancel₀ _ hS.ne'
    have u1 := mul_le_mul_of_nonneg_right eU.1 hS.le
    have u2 := mul_le_mul_of_nonneg_right eU.2 hS.le
    rw [show (D / S - D / S / 2 ^ 53) * S = D / S * S - D / S * S / 2 ^ 53 by ring, hDS, mul_comm U S] at u1
    rw [show (D / S + D / S / 2 ^ 53) * S = D / S * S + D / S * S / 2 ^ 53 by ring, hDS, mul_comm U S] at u2
    generalize S * U = W at *
    clear eU hDS
    obtain ⟨d1, d2⟩ := eD
    obtain ⟨p1, p2⟩ := eP
    have hP : |lo + P - v| ≤ 4 * (v - lo) / 2 ^ 53 - (v - lo) / 2 ^ 54 := by
      rw [abs_le]
      generalize hdd : v - lo = d at *
      have : lo + P - v = P - d := by rw [← hdd]; ring
      rw [this]
      clear eR
      norm_num at *
      constructor <;> linarith
    have a1 : |lo + P| ≤ |lo + P - v| + |v| := by
      have : lo + P = (lo + P - v) + v := by ring
      conv_lhs => rw [this]
      exact abs_add_le _ _
    have a2 : |R - v| ≤ |R - (lo + P)| + |lo + P - v| := by
      have : R - v = (R - (lo + P)) + (lo + P - v) := by ring
      rw [this]
      exact abs_add_le _ _
    generalize |R - v| = r at *
    generalize |R - (lo + P)| = r1 at *
    generalize |lo + P - v| = r2 at *
    generalize |lo + P| = r3 at *
    have hv0 := abs_nonneg v
    generalize |v| = nv at *
    generalize v - lo = d at *
    clear d1 d2 p1 p2 u1 u2
    norm_num at *
    linarith
  · intro hlo
    have z : toUnity fl lo hi lo = 0 := ((C157_within hfl lo hi lo h le_rfl h.le).2.2.1).2 rfl
    rw [z, fromUnity]
    simp only [mul_zero]
    rw [fl_self hfl (Rounding.repr_zero 53), add_zero]
    exact fl_self hfl hlo

/-- C157: the bounds themselves have one and two stars. -/
theorem C157_bounds_starred {fl : ℚ → ℚ} (hfl : RoundsToNearest fl) (lo hi : ℚ) (h : lo < hi) :
    stars fl lo hi lo = 1 ∧ stars fl lo hi hi = 2 := by
  obtain ⟨-, -, h0, h1⟩ := C157_within hfl lo hi lo h le_rfl h.le
  have c1 := fl_pos hfl (show (0 : ℚ) < 5 / 100 by norm_num)
  have e1 := err hfl (show (0 : ℚ) ≤ 5 / 100 by norm_num)
  have e2 := err hfl (show (0 : ℚ) ≤ 95 / 100 by norm_num)
  have z : fl (fl (lo - lo) / scale fl lo hi) = 0 := h0.2 rfl
  have o : fl (fl (hi - lo) / scale fl lo hi) = 1 := h1
  constructor
  · simp only [stars, z, if_pos c1]
  · simp only [stars, o]
    rw [if_neg, if_pos]
    · have := e2.2; norm_num at this ⊢; linarith
    · have := e1.2; norm_num at this ⊢; linarith

/-- C157: one star is for values in the lowest 5% of the range, but for rounding, and two stars for values in the highest 5%. -/
theorem C157_stars {fl : ℚ → ℚ} (hfl : RoundsToNearest fl) (lo hi v : ℚ) (h : lo < hi) (hv : lo ≤ v) :
    (v - lo ≤ (hi - lo) * (5 / 100) * (1 - 1 / 2 ^ 50) → stars fl lo hi v = 1) ∧
      (stars fl lo hi v = 1 → v - lo ≤ (hi - lo) * (5 / 100) * (1 + 1 / 2 ^ 50)) ∧
      ((hi - lo) * (95 / 100) * (1 + 1 / 2 ^ 50) ≤ v - lo → stars fl lo hi v = 2) ∧
      (stars fl lo hi v = 2 → (hi - lo) * (95 / 100) * (1 - 1 / 2 ^ 50) ≤ v - lo) := by
  have hs : 0 < hi - lo := sub_pos.2 h
  have hd : 0 ≤ v - lo := sub_nonneg.2 hv
  have e1 := err hfl (show (0 : ℚ) ≤ 5 / 100 by norm_num)
  have e2 := err hfl (show (0 : ℚ) ≤ 95 / 100 by norm_num)
  obtain ⟨w1, w2⟩ := unity_err hfl h hv
  have hdef : stars fl lo hi v =
      if toUnity fl lo hi v < fl (5 / 100) then 1 else if toUnity fl lo hi v > fl (95 / 100) then 2 else 0 := rfl
  rw [hdef]
  clear hdef
  generalize toUnity fl lo hi v = U at *
  generalize fl (5 / 100) = c1 at *
  generalize fl (95 / 100) = c2 at *
  generalize v - lo = d at *
  generalize hi - lo = s at *
  have m1 := mul_le_mul_of_nonneg_right e1.1 hs.le
  have m2 := mul_le_mul_of_nonneg_right e1.2 hs.le
  have m3 := mul_le_mul_of_nonneg_right e2.1 hs.le
  have m4 := mul_le_mul_of_nonneg_right e2.2 hs.le
  have hc : c1 < c2 := by
    have a := e1.2
    have b := e2.1
    norm_num at a b
    linarith
  have lt1 : U < c1 ↔ U * s < c1 * s := (mul_lt_mul_iff_left₀ hs).symm
  have lt2 : c2 < U ↔ c2 * s < U * s := (mul_lt_mul_iff_left₀ hs).symm
  have hcs : c1 * s < c2 * s := (mul_lt_mul_iff_left₀ hs).2 hc
  simp only [gt_iff_lt, lt1, lt2]
  generalize U * s = w at *
  generalize c1 * s = k1 at *
  generalize c2 * s = k2 at *
  clear lt1 lt2 e1 e2
  norm_num at m1 m2 m3 m4 w1 w2
  refine ⟨fun hh => ?_, fun hh => ?_, fun hh => ?_, fun hh => ?_⟩
  · norm_num at hh
    rw [if_pos (by linarith)]
  · by_contra hcon
    push Not at hcon
    norm_num at hcon
    rw [if_neg (by linarith)] at hh
    split_ifs at hh <;> cases hh
  · norm_num at hh
    rw [if_neg (by linarith), if_pos (by linarith)]
  · by_contra hcon
    push Not at hcon
    norm_num at hcon
    by_cases h1 : w < k1
    · rw [if_pos h1] at hh; cases hh
    · rw [if_neg h1, if_neg (by linarith)] at hh; cases hh

/-! ## Cases -/

/-- The bounds 0.1 and 0.7, as doubles. -/
example : toUnity round53 (round53 (1 / 10)) (round53 (7 / 10)) (round53 (1 / 10)) = 0 ∧
    stars round53 (round53 (1 / 10)) (round53 (7 / 10)) (round53 (13 / 100)) = 0 ∧
    stars round53 (round53 (1 / 10)) (round53 (7 / 10)) (round53 (12 / 100)) = 1 ∧
    stars round53 (round53 (1 / 10)) (round53 (7 / 10)) (round53 (68 / 100)) = 2 := by decide +kernel

example := C157_within round53_nearest (1 / 2) (7 / 10) (3 / 5) (by norm_num) (by norm_num) (by norm_num)
example := C157_order round53_nearest (1 / 2) (7 / 10) (3 / 5) (13 / 20) (by norm_num) (by norm_num)
example := C157_accurate round53_nearest (1 / 2) (7 / 10) (3 / 5) (by norm_num) (by norm_num)
example := C157_round_trip round53_nearest (1 / 2) (7 / 10) (3 / 5) (by norm_num) (by norm_num)
example := C157_bounds_starred round53_nearest (1 / 2) (7 / 10) (by norm_num)
example := C157_stars round53_nearest (1 / 2) (7 / 10) (3 / 5) (by norm_num) (by norm_num)

end UnityRounded
end Ade
