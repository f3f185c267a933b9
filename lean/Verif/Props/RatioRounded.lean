import Verif.Model.RatioRounded
import Verif.Props.Rounding
import Verif.Props.SamplerRounded
import Verif.Props.Reporter
import Mathlib.Tactic.Linarith
import Mathlib.Tactic.FieldSimp
import Mathlib.Tactic.Positivity

/-!
# The ratio of a report in floating-point arithmetic (C147)
-/

set_option autoImplicit false

namespace Ade
namespace RatioRounded

open Rounding (Repr)
open Reporter (roundHalfEven round_nearest round_mono round_pos)

/-- Rounding to the nearest number with 53 bits, with any rule for ties. -/
def RoundsToNearest (fl : ℚ → ℚ) : Prop := ∀ x, Rounding.Nearest 53 x (fl x)

/-! ## Rounding to 53 bits -/

theorem zpow_shift {e : ℤ} : (2 : ℚ) ^ (e + 52) = 2 ^ 52 * 2 ^ e := by
  rw [zpow_add₀ (by norm_num)]; norm_num; ring

theorem repr_mul_zpow {k : ℕ} (hk : k ≤ 2 ^ 53) (e : ℤ) : Repr 53 ((k : ℚ) * 2 ^ e) := by
  rcases Nat.lt_or_eq_of_le hk with h | h
  · exact ⟨k, e, by rw [abs_of_nonneg (by positivity)]; exact_mod_cast h, by simp⟩
  · refine ⟨2 ^ 52, e + 1, by norm_num, ?_⟩
    rw [h, zpow_add₀ (by norm_num)]; norm_num; ring

theorem repr_neg {x : ℚ} (h : Repr 53 x) : Repr 53 (-x) := by
  obtain ⟨m, e, hm, rfl⟩ := h
  exact ⟨-m, e, by rwa [abs_neg], by push_cast; ring⟩

/-- The place of a positive number among the multiples of its last place. -/
theorem place {x : ℚ} (hx : 0 < x) :
    (2 : ℚ) ^ 52 ≤ x / 2 ^ (Int.log 2 x - 52) ∧ x / 2 ^ (Int.log 2 x - 52) < 2 ^ 53 := by
  have h1 : (2 : ℚ) ^ Int.log 2 x ≤ x := by exact_mod_cast Int.zpow_log_le_self (b := 2) (by norm_num) hx
  have h2 : x < (2 : ℚ) ^ (Int.log 2 x + 1) := by exact_mod_cast Int.lt_zpow_succ_log_self (b := 2) (by norm_num) x
  generalize Int.log 2 x = L at *
  have hp : (0 : ℚ) < 2 ^ (L - 52) := by positivity
  have e1 : (2 : ℚ) ^ L = 2 ^ 52 * 2 ^ (L - 52) := by rw [← zpow_shift]; congr 1; ring
  have e2 : (2 : ℚ) ^ (L + 1) = 2 ^ 53 * 2 ^ (L - 52) := by rw [zpow_add₀ (by norm_num), e1]; norm_num; ring
  rw [le_div_iff₀ hp, div_lt_iff₀ hp]
  exact ⟨by rw [← e1]; exact h1, by rw [← e2]; exact h2⟩

theorem nearest_pos {x : ℚ} (hx : 0 < x) : Rounding.Nearest 53 x (roundPos x) := by
  obtain ⟨h1, h2⟩ := place hx
  unfold roundPos
  simp only
  generalize Int.log 2 x - 52 = e at *
  have hp : (0 : ℚ) < 2 ^ e := by positivity
  generalize hN : x / (2 : ℚ) ^ e = N at *
  have hxN : x = N * 2 ^ e := by rw [← hN]; field_simp
  have hN0 : 0 ≤ N := le_trans (by norm_num) h1
  have f1 := Int.floor_le N
  have f2 := Int.lt_floor_add_one N
  have hc := Reporter.floor_cast hN0
  have hfl1 : 2 ^ 52 ≤ ⌊N⌋.toNat := by
    have : (2 ^ 52 : ℤ) ≤ ⌊N⌋ := Int.le_floor.2 (by push_cast; exact h1)
    omega
  have hfl2 : ⌊N⌋.toNat < 2 ^ 53 := by
    have : ⌊N⌋ < (2 ^ 53 : ℤ) := Int.floor_lt.2 (by push_cast; exact h2)
    omega
  rw [← hc] at f1 f2
  have hr : roundHalfEven N = (if N - (⌊N⌋.toNat : ℕ) < 1 / 2 then ⌊N⌋.toNat else if N - (⌊N⌋.toNat : ℕ) > 1 / 2 then ⌊N⌋.toNat + 1
      else if ⌊N⌋.toNat % 2 = 0 then ⌊N⌋.toNat else ⌊N⌋.toNat + 1) := rfl
  generalize ⌊N⌋.toNat = f at *
  have hle : roundHalfEven N ≤ 2 ^ 53 := by rw [hr]; split_ifs <;> omega
  refine ⟨repr_mul_zpow hle e, fun z hz => ?_⟩
  have hd : |x - roundHalfEven N * 2 ^ e| = |N - roundHalfEven N| * 2 ^ e := by
    rw [hxN, ← sub_mul, abs_mul, abs_of_pos hp]
  have hz' : z ≤ f * 2 ^ e ∨ ((f : ℚ) + 1) * 2 ^ e ≤ z := by
    by_cases h : z < ((f + 1 : ℕ) : ℚ) * 2 ^ e
    · have := Rounding.repr_gap (p := 53) (M := f + 1) (E := e) (by omega) hz h
      left; push_cast at this; linarith
    · right; push Not at h; push_cast at h; exact h
  have key : |N - roundHalfEven N| ≤ N - f ∧ |N - roundHalfEven N| ≤ f + 1 - N := by
    rw [hr]
    split_ifs with ha hb hb <;> push_cast <;> constructor <;> rw [abs_le] <;> constructor <;> linarith
  rw [hd]
  rcases hz' with h | h
  · have : (N - f) * 2 ^ e ≤ x - z := by rw [hxN]; linarith
    exact le_trans (le_trans (mul_le_mul_of_nonneg_right key.1 hp.le) this) (le_abs_self _)
  · have : (f + 1 - N) * 2 ^ e ≤ z - x := by rw [hxN]; linarith
    rw [abs_sub_comm x z]
    exact le_trans (le_trans (mul_le_mul_of_nonneg_right key.2 hp.le) this) (le_abs_self _)

/-- `round53` is a rounding to nearest. -/
theorem round53_nearest : RoundsToNearest round53 := by
  intro x
  unfold round53
  split_ifs with h1 h2
  · exact nearest_pos h1
  · obtain ⟨a, b⟩ := nearest_pos (neg_pos.2 h2)
    refine ⟨repr_neg a, fun z hz => ?_⟩
    have := b (-z) (repr_neg hz)
    rw [show x - -roundPos (-x) = -(-x - roundPos (-x)) by ring, abs_neg, show x - z = -(-x - -z) by ring, abs_neg]
    exact this
  · have : x = 0 := by linarith
    subst this
    exact ⟨Rounding.repr_zero 53, fun z _ => by simp⟩

/-- The error of a rounding is at most one part in `2 ^ 53`. -/
theorem rounding_error {fl : ℚ → ℚ} (hfl : RoundsToNearest fl) {x : ℚ} (hx : 0 < x) : |x - fl x| ≤ x / 2 ^ 53 := by
  obtain ⟨h1, h2⟩ := place hx
  have hle := (hfl x).2 (roundPos x) (nearest_pos hx).1
  refine le_trans hle ?_
  unfold roundPos
  simp only
  generalize Int.log 2 x - 52 = e at *
  have hp : (0 : ℚ) < 2 ^ e := by positivity
  generalize hN : x / (2 : ℚ) ^ e = N at *
  have hxN : x = N * 2 ^ e := by rw [← hN]; field_simp
  have hr := round_nearest (le_trans (by norm_num) h1 : (0 : ℚ) ≤ N)
  unfold Reporter.Nearest at hr
  rw [hxN, ← sub_mul, abs_mul, abs_of_pos hp, abs_sub_comm]
  have : |(roundHalfEven N : ℚ) - N| ≤ N / 2 ^ 53 := le_trans hr (by rw [le_div_iff₀ (by positivity)]; linarith)
  calc _ ≤ N / 2 ^ 53 * 2 ^ e := mul_le_mul_of_nonneg_right this hp.le
    _ = _ := by ring

theorem fl_mono {fl : ℚ → ℚ} (hfl : RoundsToNearest fl) {x y : ℚ} (h : x ≤ y) : fl x ≤ fl y := by
  rcases h.lt_or_eq with h | h
  · by_contra hc
    push Not at hc
    have a := (hfl x).2 (fl y) (hfl y).1
    have b := (hfl y).2 (fl x) (hfl x).1
    rcases abs_cases (x - fl x) with ⟨p, p'⟩ | ⟨p, p'⟩ <;> rcases abs_cases (x - fl y) with ⟨q, q'⟩ | ⟨q, q'⟩ <;>
      rcases abs_cases (y - fl x) with ⟨r, r'⟩ | ⟨r, r'⟩ <;> rcases abs_cases (y - fl y) with ⟨s, s'⟩ | ⟨s, s'⟩ <;> linarith
  · rw [h]

theorem fl_self {fl : ℚ → ℚ} (hfl : RoundsToNearest fl) {x : ℚ} (hx : Repr 53 x) : fl x = x :=
  le_antisymm (Rounding.nearest_le (hfl x) hx le_rfl) (Rounding.le_nearest (hfl x) hx le_rfl)

theorem repr_one : Repr 53 1 := ⟨1, 0, by norm_num, by norm_num⟩
theorem repr_half : Repr 53 (1 / 2) := ⟨1, -1, by norm_num, by norm_num⟩

/-- Subtraction of one is exact for a float from one half to one. -/
theorem sub_one_repr {q : ℚ} (hq : Repr 53 q) (h0 : 1 / 2 ≤ q) (h1 : q ≤ 1) : Repr 53 (q - 1) := by
  rcases h0.lt_or_eq with h2 | h2
  · rcases h1.lt_or_eq with h3 | h3
    · obtain ⟨k, k1, k2, rfl⟩ := SamplerRounded.half_grid hq h2 h3
      refine ⟨(k : ℤ) - 2 ^ 53, -53, by rw [abs_lt]; constructor <;> omega, ?_⟩
      rw [zpow_neg]; push_cast; field_simp; norm_num; ring
    · rw [h3, sub_self]; exact Rounding.repr_zero 53
  · exact ⟨-1, -1, by norm_num, by rw [← h2]; norm_num⟩

/-! ## C147: the ratio of a report -/

/-- The computed difference of two scores, relative to the worse one. -/
theorem computed_diff {fl : ℚ → ℚ} (hfl : RoundsToNearest fl) {a b : ℚ} (ha : 0 < a) (hb : 0 ≤ b) (hba : b ≤ a) :
    fl (b / a) ≤ 1 ∧ |fl (fl (b / a) - 1)| = -fl (fl (b / a) - 1) ∧
    (1 / 2 ≤ fl (b / a) → fl (fl (b / a) - 1) = fl (b / a) - 1) ∧ |b / a - fl (b / a)| ≤ 1 / 2 ^ 53 := by
  have hq1 : b / a ≤ 1 := (div_le_one ha).2 hba
  have hq0 : 0 ≤ b / a := div_nonneg hb ha.le
  have h1 : fl (b / a) ≤ 1 := Rounding.nearest_le (hfl _) repr_one hq1
  have h2 : fl (fl (b / a) - 1) ≤ 0 := Rounding.nearest_le (hfl _) (Rounding.repr_zero 53) (by linarith)
  refine ⟨h1, abs_of_nonpos h2, fun h => fl_self hfl (sub_one_repr (hfl _).1 h h1), ?_⟩
  rcases hq0.lt_or_eq with h | h
  · refine le_trans (rounding_error hfl h) ?_
    exact div_le_div_of_nonneg_right hq1 (by positivity)
  · rw [← h, fl_self hfl (Rounding.repr_zero 53)]; norm_num

/-- C147: in floating-point arithmetic too, the ratio is missing exactly when the old score is strictly better. -/
theorem C147_none_iff (fl : ℚ → ℚ) (minDiff a b : ℚ) : ratioFl fl minDiff a b = none ↔ a < b := by
  unfold ratioFl
  split_ifs <;> simp_all

/-- C147: an improvement short of the significant one by a margin of 2⁻⁵² (of the old score) has the ratio zero, and one beyond it by
that margin does not, however divisions and subtractions are rounded. -/
theorem C147_zero_margin {fl : ℚ → ℚ} (hfl : RoundsToNearest fl) {minDiff a b : ℚ} (hd : minDiff ≤ 1 / 2) (ha : 0 < a) (hb : 0 ≤ b)
    (hba : b ≤ a) :
    (a - b ≤ a * (minDiff - 1 / 2 ^ 52) → ratioFl fl minDiff a b = some 0) ∧
    (a * (minDiff + 1 / 2 ^ 52) ≤ a - b → ratioFl fl minDiff a b ≠ some 0) := by
  obtain ⟨h1, h2, h3, h4⟩ := computed_diff hfl ha hb hba
  have hq : a - b = a * (1 - b / a) := by field_simp
  have h4' := abs_le.1 h4
  constructor
  · intro h
    rw [hq] at h
    have h5 := le_of_mul_le_mul_left h ha
    have h6 : 1 / 2 ≤ fl (b / a) := by norm_num at *; linarith
    unfold ratioFl equivFl
    rw [if_neg (not_lt.2 hba), if_neg ha.ne', if_pos]
    rw [decide_eq_true_eq, h2, h3 h6]
    norm_num at *; linarith
  · intro h
    rw [hq] at h
    have h5 := le_of_mul_le_mul_left h ha
    have hne : equivFl fl minDiff b a = false := by
      unfold equivFl
      rw [if_neg ha.ne', decide_eq_false_iff_not, not_lt, h2]
      rcases le_or_gt (1 / 2) (fl (b / a)) with h6 | h6
      · rw [h3 h6]; norm_num at *; linarith
      · have := Rounding.nearest_le (hfl (fl (b / a) - 1)) (repr_neg repr_half) (by linarith)
        linarith
    unfold ratioFl
    rw [if_neg (not_lt.2 hba), hne]
    simp only [Bool.false_eq_true, if_false]
    split_ifs with hb0
    · simp
    · have hb' : 0 < b := lt_of_le_of_ne hb (Ne.symm hb0)
      have := round_pos (Rounding.le_nearest (hfl (a / b)) repr_one ((one_le_div hb').2 hba))
      intro hc
      have := Option.some.inj hc
      omega

/-- C147: a ratio of positive scores that is not zero is at least one, and it is a whole number nearest to the exact quotient up to one
part in 2⁵³ of the quotient; so it is exactly a nearest one unless the quotient is that close to the middle between two. -/
theorem C147_nearest {fl : ℚ → ℚ} (hfl : RoundsToNearest fl) {minDiff a b : ℚ} (hb : 0 < b) {r : ℕ}
    (h : ratioFl fl minDiff a b = some r) (hr : r ≠ 0) :
    1 ≤ r ∧ |(r : ℚ) - a / b| ≤ 1 / 2 + a / b / 2 ^ 53 ∧
    ((∀ k : ℕ, a / b / 2 ^ 53 < |a / b - (k + 1 / 2)|) → ∀ n : ℕ, |(r : ℚ) - a / b| ≤ |(n : ℚ) - a / b|) := by
  unfold ratioFl at h
  split_ifs at h with h1 h2 h3
  · exact absurd (Option.some.inj h).symm hr
  · exact absurd h3 hb.ne'
  · have hr' := Option.some.inj h
    have hba := not_lt.1 h1
    have hq1 : 1 ≤ a / b := (one_le_div hb).2 hba
    have hf1 := Rounding.le_nearest (hfl (a / b)) repr_one hq1
    have herr := rounding_error hfl (by linarith : 0 < a / b)
    have hn := round_nearest (by linarith : 0 ≤ fl (a / b))
    unfold Reporter.Nearest at hn
    rw [hr'] at hn
    generalize a / b = q at *
    have hA : |(r : ℚ) - q| ≤ 1 / 2 + q / 2 ^ 53 := by
      have := abs_le.1 herr
      have := abs_le.1 hn
      rw [abs_le]; constructor <;> linarith
    refine ⟨by omega, hA, fun hm n => ?_⟩
    -- the exact distance is at most one half
    have hB : |(r : ℚ) - q| ≤ 1 / 2 := by
      by_contra hc
      push Not at hc
      have he := abs_le.1 hA
      rcases abs_cases ((r : ℚ) - q) with ⟨p, p'⟩ | ⟨p, p'⟩
      · -- `q` is below `r - 1/2`
        have hk := hm (r - 1)
        rw [Nat.cast_sub (by omega)] at hk
        rcases lt_abs.1 hk with k | k <;> push_cast at k <;> linarith
      · have hk := hm r
        rcases lt_abs.1 hk with k | k <;> linarith
    rcases eq_or_ne n r with rfl | hnr
    · exact le_rfl
    · have : (1 : ℚ) ≤ |(n : ℚ) - r| := by
        have : (1 : ℤ) ≤ |(n : ℤ) - r| := Int.one_le_abs (by omega)
        exact_mod_cast this
      have := abs_sub_abs_le_abs_sub ((n : ℚ) - r) (q - r)
      have e1 : (n : ℚ) - r - (q - r) = n - q := by ring
      rw [e1, abs_sub_comm q] at this
      linarith

/-- C147: in floating-point arithmetic too, a smaller positive score of the new individual never gives a smaller ratio. -/
theorem C147_monotone {fl : ℚ → ℚ} (hfl : RoundsToNearest fl) {minDiff a b b' : ℚ} {r r' : ℕ} (hb' : 0 < b') (hle : b' ≤ b)
    (h : ratioFl fl minDiff a b = some r) (h' : ratioFl fl minDiff a b' = some r') : r ≤ r' := by
  have hb : 0 < b := lt_of_lt_of_le hb' hle
  rcases Nat.eq_zero_or_pos r with rfl | hr
  · exact Nat.zero_le _
  have hba : b ≤ a := by
    by_contra hc
    rw [(C147_none_iff fl minDiff a b).2 (not_le.1 hc)] at h
    cases h
  have ha : 0 < a := lt_of_lt_of_le hb hba
  unfold ratioFl at h h'
  rw [if_neg (not_lt.2 hba), if_neg hb.ne'] at h
  rw [if_neg (not_lt.2 (hle.trans hba)), if_neg hb'.ne'] at h'
  have hq : 0 ≤ fl (a / b) := Rounding.le_nearest (hfl _) (Rounding.repr_zero 53) (by positivity)
  split_ifs at h with h1
  · have := Option.some.inj h; omega
  · have hne : equivFl fl minDiff b' a = false := by
      unfold equivFl at h1 ⊢
      rw [if_neg ha.ne', decide_eq_true_eq, not_lt] at h1
      rw [if_neg ha.ne', decide_eq_false_iff_not, not_lt]
      refine le_trans h1 ?_
      rw [(computed_diff hfl ha hb.le hba).2.1, (computed_diff hfl ha hb'.le (hle.trans hba)).2.1]
      have : fl (b' / a) ≤ fl (b / a) := fl_mono hfl (div_le_div_of_nonneg_right hle ha.le)
      have := fl_mono hfl (sub_le_sub_right this 1)
      linarith
    rw [hne] at h'
    simp only [Bool.false_eq_true, if_false] at h'
    rw [← Option.some.inj h, ← Option.some.inj h']
    exact round_mono hq (fl_mono hfl (div_le_div_of_nonneg_left ha.le hb' hle))

/-- C147: the exact ratio of the other model, `Reporter.msgRatio`, is the one computed here, when nothing is rounded. -/
theorem C147_exact {old new : Individual} {a b : ℚ} (ho : Reporter.Scored old a) (hn : Reporter.Scored new b) (c : Char) :
    (Reporter.msgRatio old new c).1 = ratioFl id (2 / 100) a b := by
  rw [Reporter.msgRatio_scored ho hn]
  unfold ratioFl equivFl Reporter.equivSSE
  simp only [id]
  split_ifs <;> simp_all

/-- The default of `minDiff` (ade/report.py:60), the number written as 0.02. -/
def defaultDiff : ℚ := round53 (2 / 100)

/-- C147: with the arithmetic of Python and the default of two percent, an improvement of two percent or more never has the ratio zero:
in this direction there is no margin. -/
theorem C147_two_percent {a b : ℚ} (ha : 0 < a) (hb : 0 ≤ b) (h : a / 50 ≤ a - b) : ratioFl round53 defaultDiff a b ≠ some 0 := by
  have hba : b ≤ a := by linarith [div_nonneg ha.le (by norm_num : (0 : ℚ) ≤ 50)]
  obtain ⟨h1, h2, h3, -⟩ := computed_diff round53_nearest ha hb hba
  have hq : b / a ≤ 98 / 100 := by rw [div_le_iff₀ ha]; linarith
  have hm : round53 (b / a) ≤ round53 (98 / 100) := fl_mono round53_nearest hq
  have hm2 := fl_mono round53_nearest (sub_le_sub_right hm 1)
  have hv : round53 (round53 (98 / 100) - 1) ≤ -defaultDiff := by decide +kernel
  have hne : equivFl round53 defaultDiff b a = false := by
    unfold equivFl
    rw [if_neg ha.ne', decide_eq_false_iff_not, not_lt, h2]
    linarith
  unfold ratioFl
  rw [if_neg (not_lt.2 hba), hne]
  simp only [Bool.false_eq_true, if_false]
  split_ifs with hb0
  · simp
  · have hb' : 0 < b := lt_of_le_of_ne hb (Ne.symm hb0)
    have := round_pos (Rounding.le_nearest (round53_nearest (a / b)) repr_one ((one_le_div hb').2 hba))
    intro hc
    have := Option.some.inj hc
    omega

/-- C147: in the other direction there is a margin: two scores that are whole numbers below 2⁵³, the improvement just short of two
percent, have the ratio one. -/
theorem C147_edge : (9007199254740951 : ℚ) - 8827055269646132 < 9007199254740951 / 50 ∧
    Repr 53 9007199254740951 ∧ Repr 53 8827055269646132 ∧
    ratioFl round53 defaultDiff 9007199254740951 8827055269646132 = some 1 :=
  ⟨by norm_num, ⟨9007199254740951, 0, by norm_num, by norm_num⟩, ⟨8827055269646132, 0, by norm_num, by norm_num⟩, by decide +kernel⟩

namespace Demo

example := C147_none_iff round53 defaultDiff 7 2

theorem diff_half : defaultDiff ≤ 1 / 2 := by decide +kernel

/-- Scores 100 and 99 are equivalent, 100 and 90 are not. -/
example : ratioFl round53 defaultDiff 100 99 = some 0 :=
  (C147_zero_margin round53_nearest diff_half (by norm_num) (by norm_num) (by norm_num)).1 (by
    have : (2 : ℚ) / 100 - 1 / 10 ^ 10 ≤ defaultDiff := by decide +kernel
    norm_num at *; linarith)
example : ratioFl round53 defaultDiff 100 90 ≠ some 0 :=
  (C147_zero_margin round53_nearest diff_half (by norm_num) (by norm_num) (by norm_num)).2 (by
    have : defaultDiff ≤ (2 : ℚ) / 100 + 1 / 10 ^ 10 := by decide +kernel
    norm_num at *; linarith)

/-- A quotient that is not a float: 10 / 3 is rounded, the ratio is 3. -/
example : round53 (10 / 3) ≠ 10 / 3 := by decide +kernel
example := C147_nearest round53_nearest (minDiff := defaultDiff) (a := 10) (b := 3) (by norm_num) (r := 3) (by decide +kernel) (by norm_num)
example : |((3 : ℕ) : ℚ) - 10 / 3| ≤ |((4 : ℕ) : ℚ) - 10 / 3| :=
  (C147_nearest round53_nearest (minDiff := defaultDiff) (a := 10) (b := 3) (by norm_num) (r := 3) (by decide +kernel)
    (by norm_num)).2.2 (fun k => by
      rcases Nat.lt_or_ge k 3 with h | h
      · have : (k : ℚ) ≤ 2 := by exact_mod_cast (by omega : k ≤ 2)
        refine lt_abs.2 (Or.inl ?_); norm_num; linarith
      · have : (3 : ℚ) ≤ k := by exact_mod_cast h
        refine lt_abs.2 (Or.inr ?_); norm_num; linarith) 4

example : (3 : ℕ) ≤ 5 :=
  C147_monotone round53_nearest (minDiff := defaultDiff) (a := 10) (b := 3) (b' := 2) (by norm_num) (by norm_num)
    (by decide +kernel) (by decide +kernel)

example := C147_exact (old := ⟨some (.fin 7), [1]⟩) (new := ⟨some (.fin 2), [1]⟩) (a := 7) (b := 2)
  ⟨rfl, by norm_num⟩ ⟨rfl, by norm_num⟩ '!'

example := C147_two_percent (a := 100) (b := 98) (by norm_num) (by norm_num) (by norm_num)

end Demo

end RatioRounded
end Ade
