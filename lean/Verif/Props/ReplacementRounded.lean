import Verif.Model.ReplacementRounded
import Verif.Props.DifferenceRounded
import Mathlib.Analysis.SpecialFunctions.Trigonometric.Bounds
import Mathlib.Analysis.Real.Pi.Bounds

/-!
# C160: the status quo decision in spite of rounding
-/

set_option autoImplicit false

namespace Ade
namespace ReplacementRounded

open RatioRounded (RoundsToNearest round53 round53_nearest fl_self fl_mono)
open RelationsRounded (rounding_error_abs)
open DifferenceRounded (Close close_fl factor_close q q_pos q_le_one)
open Rounding (Repr)

/-- The arithmetic of a machine: rounding to nearest with 53 bits, `np.pi` and `np.sin` right to within one part in `2^52`. -/
structure Good (A : Arith) : Prop where
  fl : RoundsToNearest A.fl
  pi : |(A.pi : ℝ) - Real.pi| ≤ 1 / 2 ^ 52
  sin : ∀ z : ℚ, |(A.sin z : ℝ) - Real.sin z| ≤ 1 / 2 ^ 52

/-- The documented weight of an improvement ratio. -/
def weight (rir : ℕ) : ℚ := if rir = 0 then 1 / 10 else rir - 1 / 2

/-- The documented score of a generation. -/
def total (rirs : List ℕ) : ℚ := (rirs.map weight).sum

/-- The chance that the status quo is kept, for the quotient `x` of score and target: grows from 0 for no score to 1 for the
target. -/
noncomputable def chance (x : ℝ) : ℝ := Real.sin (Real.pi / 2 * min x 1) ^ 2

/-! ## The score -/

theorem weight_pos (r : ℕ) : 0 < weight r := by
  unfold weight
  split_ifs with h
  · norm_num
  · have : (1 : ℚ) ≤ r := by exact_mod_cast Nat.one_le_iff_ne_zero.2 h
    linarith

theorem total_nonneg (l : List ℕ) : 0 ≤ total l :=
  List.sum_nonneg fun x hx => by
    obtain ⟨r, -, rfl⟩ := List.mem_map.1 hx
    exact (weight_pos r).le

theorem addition_close {A : Arith} (hA : Good A) (r : ℕ) : 0 ≤ addition A r ∧ Close 1 (addition A r) (weight r) := by
  have h : addition A r = A.fl (weight r) := by unfold addition weight; split_ifs <;> rfl
  rw [h]
  exact ⟨DifferenceRounded.fl_nonneg hA.fl (weight_pos r).le, close_fl hA.fl (weight_pos r).le⟩

theorem score_append (A : Arith) (l : List ℕ) (r : ℕ) : score A (l ++ [r]) = A.fl (score A l + addition A r) := by
  simp [score, List.foldl_append]

theorem score_close {A : Arith} (hA : Good A) (l : List ℕ) :
    0 ≤ score A l ∧ Close (l.length + 1) (score A l) (total l) := by
  induction l using List.reverseRecOn with
  | nil => simp [score, total, Close]
  | append_singleton l r ih =>
    obtain ⟨h0, h1⟩ := ih
    obtain ⟨a0, a1⟩ := addition_close hA r
    rw [score_append]
    have hn := add_nonneg h0 a0
    refine ⟨DifferenceRounded.fl_nonneg hA.fl hn, ?_⟩
    have ht : total (l ++ [r]) = total l + weight r := by simp [total]
    rw [ht]
    have := (close_fl hA.fl hn).trans (h1.add (a1.mono a0 (weight_pos r).le (l := l.length + 1) (by omega)))
    rwa [show 1 + (l.length + 1) = (l ++ [r]).length + 1 by simp; omega] at this

/-- C160: the score is the sum of the documented weights to within one rounding for each replacement and one more. -/
theorem C160_score {A : Arith} (hA : Good A) (rirs : List ℕ) :
    |score A rirs - total rirs| ≤ max (score A rirs) (total rirs) * (rirs.length + 1) / 2 ^ 53 := by
  obtain ⟨h0, h1, h2⟩ := score_close hA rirs
  have ht := total_nonneg rirs
  have hq : 1 - ((rirs.length + 1 : ℕ) : ℚ) / 2 ^ 53 ≤ q ^ (rirs.length + 1) := factor_close (rirs.length + 1)
  push_cast at hq
  generalize score A rirs = a at *
  generalize total rirs = b at *
  generalize q ^ (rirs.length + 1) = w at *
  generalize ((rirs.length : ℚ) + 1) = m at *
  have e : ∀ M : ℚ, M * m / 2 ^ 53 = M * (m / 2 ^ 53) := fun M => by ring
  rw [e]
  generalize m / 2 ^ 53 = d at *
  rcases le_total a b with hab | hab
  · rw [max_eq_right hab, abs_of_nonpos (by linarith)]
    nlinarith
  · rw [max_eq_left hab, abs_of_nonneg (by linarith)]
    nlinarith

theorem repr_half_int (k : ℕ) (hk : k < 2 ^ 53) : Repr 53 ((k : ℚ) / 2) :=
  ⟨k, -1, by rw [abs_of_nonneg (by positivity)]; exact_mod_cast hk, by simp [div_eq_mul_inv]⟩

/-- C160: without ratios of zero the score is exact. -/
theorem C160_score_exact {A : Arith} (hA : Good A) (rirs : List ℕ) (h : ∀ r ∈ rirs, r ≠ 0) (hs : total rirs < 2 ^ 52) :
    score A rirs = total rirs := by
  suffices H : score A rirs = total rirs ∧ ∃ k : ℕ, total rirs = (k : ℚ) / 2 from H.1
  induction rirs using List.reverseRecOn with
  | nil => exact ⟨rfl, 0, by simp [total]⟩
  | append_singleton l r ih =>
    have ht : total (l ++ [r]) = total l + weight r := by simp [total]
    rw [ht] at hs ⊢
    have hw := weight_pos r
    obtain ⟨h1, k, hk⟩ := ih (fun r' hr' => h r' (by simp [hr'])) (by linarith)
    have hr : r ≠ 0 := h r (by simp)
    have hwr : weight r = ((2 * r - 1 : ℕ) : ℚ) / 2 := by
      unfold weight
      rw [if_neg hr, Nat.cast_sub (by omega)]
      push_cast; ring
    have htl := total_nonneg l
    have hlt : 2 * r - 1 < 2 ^ 53 := by
      have : ((2 * r - 1 : ℕ) : ℚ) < 2 ^ 53 := by
        rw [hwr] at hs
        have e : (2 : ℚ) ^ 53 = 2 * 2 ^ 52 := by norm_num
        linarith
      exact_mod_cast this
    have hadd : addition A r = weight r := by
      unfold addition
      rw [if_neg hr, ← fl_self hA.fl (x := weight r) (by rw [hwr]; exact repr_half_int _ hlt), weight, if_neg hr]
    have hsum : total l + weight r = ((k + (2 * r - 1) : ℕ) : ℚ) / 2 := by rw [hk, hwr, Nat.cast_add]; ring
    have hlt2 : k + (2 * r - 1) < 2 ^ 53 := by
      have : ((k + (2 * r - 1) : ℕ) : ℚ) < 2 ^ 53 := by
        rw [hsum] at hs
        have e : (2 : ℚ) ^ 53 = 2 * 2 ^ 52 := by norm_num
        linarith
      exact_mod_cast this
    refine ⟨?_, _, hsum⟩
    rw [score_append, h1, hadd]
    exact fl_self hA.fl (by rw [hsum]; exact repr_half_int _ hlt2)

/-! ## The decision -/

theorem errR {A : Arith} (hA : Good A) (x : ℚ) : |((A.fl x : ℚ) : ℝ) - x| ≤ |(x : ℝ)| / 2 ^ 53 := by
  exact_mod_cast rounding_error_abs hA.fl x

theorem chance_lipschitz (x y : ℝ) : |chance x - chance y| ≤ Real.pi / 2 * |min x 1 - min y 1| := by
  unfold chance
  have h : ∀ a : ℝ, Real.sin (Real.pi / 2 * a) ^ 2 = 1 / 2 - Real.cos (Real.pi * a) / 2 := by
    intro a
    have := Real.cos_sq' (Real.pi / 2 * a)
    have h2 := Real.cos_sq (Real.pi / 2 * a)
    rw [show 2 * (Real.pi / 2 * a) = Real.pi * a by ring] at h2
    linarith
  rw [h, h]
  have := Real.abs_cos_sub_cos_le (Real.pi * min y 1) (Real.pi * min x 1)
  rw [← mul_sub, abs_mul, abs_of_pos Real.pi_pos, abs_sub_comm (min y 1)] at this
  have e : 1 / 2 - Real.cos (Real.pi * min x 1) / 2 - (1 / 2 - Real.cos (Real.pi * min y 1) / 2) =
      (Real.cos (Real.pi * min y 1) - Real.cos (Real.pi * min x 1)) / 2 := by ring
  rw [e, abs_div, abs_of_pos (two_pos : (0 : ℝ) < 2)]
  linarith

theorem chance_eq {x : ℝ} (hx : x ≤ 1) : chance x = 1 / 2 + 1 / 2 * Real.sin (Real.pi * (x - 1 / 2)) := by
  unfold chance
  rw [min_eq_left hx]
  have h2 := Real.cos_sq (Real.pi / 2 * x)
  have h3 := Real.sin_sq (Real.pi / 2 * x)
  rw [show 2 * (Real.pi / 2 * x) = Real.pi * x by ring] at h2
  have h4 : Real.sin (Real.pi * (x - 1 / 2)) = - Real.cos (Real.pi * x) := by
    rw [show Real.pi * (x - 1 / 2) = Real.pi * x - Real.pi / 2 by ring, Real.sin_sub_pi_div_two]
  rw [h4]; linarith

/-- The computed probability. -/
def prob (A : Arith) (x : ℚ) : ℚ := A.fl (1 / 2 + A.fl (1 / 2 * A.sin (A.fl (A.pi * A.fl (x - 1 / 2)))))

theorem prob_error {A : Arith} (hA : Good A) {x : ℚ} (h0 : 0 ≤ x) (h1 : x ≤ 1) : |(prob A x : ℝ) - chance x| ≤ 5 / 2 ^ 53 := by
  have h1' : (x : ℝ) ≤ 1 := by exact_mod_cast h1
  have h0' : (0 : ℝ) ≤ x := by exact_mod_cast h0
  rw [chance_eq h1']
  unfold prob
  have pi1 := Real.pi_gt_d2
  have pi2 := Real.pi_lt_d2
  -- the subtraction
  have e1 := errR hA (x - 1 / 2)
  push_cast at e1
  have b1 : |(x : ℝ) - 1 / 2| ≤ 1 / 2 := by rw [abs_le]; constructor <;> linarith
  generalize A.fl (x - 1 / 2) = y at *
  have e1' : |(y : ℝ) - (x - 1 / 2)| ≤ 1 / 2 ^ 54 := by
    refine e1.trans ?_
    norm_num at b1 ⊢; linarith
  have b2 : |(y : ℝ)| ≤ 1 / 2 + 1 / 2 ^ 54 := by
    have : (y : ℝ) = (y - (x - 1 / 2)) + (x - 1 / 2) := by ring
    rw [this]; exact (abs_add_le _ _).trans (by linarith)
  -- the product
  have e2 := errR hA (A.pi * y)
  push_cast at e2
  have hpi := hA.pi
  have b3 : |(A.pi : ℝ) * y - Real.pi * (x - 1 / 2)| ≤ 1 / 2 ^ 52 * (1 / 2 + 1 / 2 ^ 54) + Real.pi * (1 / 2 ^ 54) := by
    have : (A.pi : ℝ) * y - Real.pi * (x - 1 / 2) = (A.pi - Real.pi) * y + Real.pi * (y - (x - 1 / 2)) := by ring
    rw [this]
    refine (abs_add_le _ _).trans (add_le_add ?_ ?_)
    · rw [abs_mul]; exact mul_le_mul hpi b2 (abs_nonneg _) (by norm_num)
    · rw [abs_mul, abs_of_pos Real.pi_pos]; exact mul_le_mul_of_nonneg_left e1' Real.pi_pos.le
  have b4 : |(A.pi : ℝ) * y| ≤ 1.6 := by
    have h : |(A.pi : ℝ) * y| ≤ |(A.pi : ℝ) * y - Real.pi * (x - 1 / 2)| + |Real.pi * ((x : ℝ) - 1 / 2)| := by
      have : (A.pi : ℝ) * y = ((A.pi : ℝ) * y - Real.pi * (x - 1 / 2)) + Real.pi * (x - 1 / 2) := by ring
      conv_lhs => rw [this]
      exact abs_add_le _ _
    have h' : |Real.pi * ((x : ℝ) - 1 / 2)| ≤ Real.pi * (1 / 2) := by
      rw [abs_mul, abs_of_pos Real.pi_pos]; exact mul_le_mul_of_nonneg_left b1 Real.pi_pos.le
    norm_num at *
    linarith
  generalize A.fl (A.pi * y) = z at *
  have e3 : |(z : ℝ) - Real.pi * (x - 1 / 2)| ≤ 43 / 10 / 2 ^ 53 := by
    have : (z : ℝ) - Real.pi * (x - 1 / 2) = (z - A.pi * y) + (A.pi * y - Real.pi * (x - 1 / 2)) := by ring
    rw [this]
    refine (abs_add_le _ _).trans ?_
    norm_num at *
    linarith
  -- the sine
  have e4 := hA.sin z
  have e5 := Real.abs_sin_sub_sin_le z (Real.pi * (x - 1 / 2))
  generalize A.sin z = s at *
  have hs1 := Real.abs_sin_le_one (Real.pi * (x - 1 / 2))
  generalize Real.sin (Real.pi * (x - 1 / 2)) = t at *
  generalize Real.sin (z : ℝ) = t' at *
  have e6 : |(s : ℝ) - t| ≤ 63 / 10 / 2 ^ 53 := by
    have : (s : ℝ) - t = (s - t') + (t' - t) := by ring
    rw [this]
    refine (abs_add_le _ _).trans ?_
    norm_num at *
    linarith
  -- the rest
  have e7 := errR hA (1 / 2 * s)
  push_cast at e7
  have b5 : |(s : ℝ)| ≤ 1.001 := by
    have : (s : ℝ) = (s - t) + t := by ring
    rw [this]; refine (abs_add_le _ _).trans ?_
    norm_num at *; linarith
  have b6 : |(1 : ℝ) / 2 * s| ≤ 0.501 := by
    rw [abs_mul, abs_of_pos (by norm_num : (0 : ℝ) < 1 / 2)]; norm_num at *; linarith
  generalize A.fl (1 / 2 * s) = v at *
  have e8 := errR hA (1 / 2 + v)
  push_cast at e8
  have e9 : |(v : ℝ) - 1 / 2 * t| ≤ 37 / 10 / 2 ^ 53 := by
    have : (v : ℝ) - 1 / 2 * t = (v - 1 / 2 * s) + 1 / 2 * (s - t) := by ring
    rw [this]
    refine (abs_add_le _ _).trans ?_
    rw [abs_mul, abs_of_pos (by norm_num : (0 : ℝ) < 1 / 2)]
    norm_num at *
    linarith
  have b7 : |(1 : ℝ) / 2 + v| ≤ 1.001 := by
    have : (1 : ℝ) / 2 + v = (v - 1 / 2 * t) + (1 / 2 + 1 / 2 * t) := by ring
    rw [this]; refine (abs_add_le _ _).trans ?_
    have : |(1 : ℝ) / 2 + 1 / 2 * t| ≤ 1 := by
      obtain ⟨t1, t2⟩ := abs_le.1 hs1
      rw [abs_le]; constructor <;> linarith
    norm_num at *; linarith
  generalize A.fl (1 / 2 + v) = p at *
  have : (p : ℝ) - (1 / 2 + 1 / 2 * t) = (p - (1 / 2 + v)) + (v - 1 / 2 * t) := by ring
  rw [this]
  refine (abs_add_le _ _).trans ?_
  norm_num at *
  linarith

/-- C160: the status quo is kept as if computed exactly, unless the random number is within `(m + 5)/2^52` of the documented
chance, for `m` replacements. -/
theorem C160_decision {A : Arith} (hA : Good A) (rirs : List ℕ) (sqs u : ℚ) (hs : 0 < sqs) (hu : u < 1)
    (h : ((rirs.length : ℝ) + 5) / 2 ^ 52 < |(u : ℝ) - chance ((total rirs / sqs : ℚ) : ℝ)|) :
    inquiry A rirs sqs u = true ↔ (u : ℝ) < chance ((total rirs / sqs : ℚ) : ℝ) := by
  obtain ⟨h0, h1⟩ := score_close hA rirs
  have ht := total_nonneg rirs
  have hn := div_nonneg h0 hs.le
  have hn' := div_nonneg ht hs.le
  have hc := (close_fl hA.fl hn).trans (h1.div (Close.refl (a := sqs)) h0 ht hs hs)
  have hx0 := DifferenceRounded.fl_nonneg hA.fl hn
  rw [show 1 + (rirs.length + 1 + 0) = rirs.length + 2 by omega] at hc
  have hq : 1 - ((rirs.length + 2 : ℕ) : ℚ) / 2 ^ 53 ≤ q ^ (rirs.length + 2) := factor_close (rirs.length + 2)
  have hq1 : q ^ (rirs.length + 2) ≤ 1 := pow_le_one₀ q_pos.le q_le_one
  have hq0 : 0 < q ^ (rirs.length + 2) := pow_pos q_pos _
  unfold inquiry keepStatusQuo
  dsimp only
  generalize A.fl (score A rirs / sqs) = x at *
  generalize total rirs / sqs = y at *
  obtain ⟨hc1, hc2⟩ := hc
  generalize q ^ (rirs.length + 2) = w at *
  push_cast at hq
  have hmin : |min x 1 - min y 1| ≤ 1 - w := by
    have key : ∀ a b : ℚ, 0 ≤ a → 0 ≤ b → a * w ≤ b → min a 1 - min b 1 ≤ 1 - w := by
      intro a b ha hb hab
      have : min a 1 * w ≤ min b 1 := by
        refine le_min ((mul_le_mul_of_nonneg_right (min_le_left _ _) hq0.le).trans hab) ?_
        exact mul_le_one₀ (min_le_right _ _) hq0.le hq1
      have h1 : min a 1 ≤ 1 := min_le_right _ _
      nlinarith
    rw [abs_le]
    constructor
    · linarith [key y x hn' hx0 hc2]
    · exact key x y hx0 hn' hc1
  have hminR : |min (x : ℝ) 1 - min (y : ℝ) 1| ≤ ((rirs.length : ℝ) + 2) / 2 ^ 53 := by
    have : |min x 1 - min y 1| ≤ ((rirs.length : ℚ) + 2) / 2 ^ 53 := by linarith
    have h' : ((|min x 1 - min y 1| : ℚ) : ℝ) ≤ ((((rirs.length : ℚ) + 2) / 2 ^ 53 : ℚ) : ℝ) := Rat.cast_le.2 this
    push_cast at h'
    exact h'
  have hch := chance_lipschitz x y
  have hpi := Real.pi_lt_d2
  have hL : |chance x - chance y| ≤ 1.6 * (((rirs.length : ℝ) + 2) / 2 ^ 53) := by
    refine hch.trans (mul_le_mul (by norm_num at *; linarith) hminR (abs_nonneg _) (by norm_num))
  have hm : (0 : ℝ) ≤ rirs.length := Nat.cast_nonneg _
  generalize (rirs.length : ℝ) = m at *
  have huR : (u : ℝ) < 1 := by exact_mod_cast hu
  by_cases hx1 : x > 1
  · rw [if_pos hx1]
    have : chance (x : ℝ) = 1 := by
      have : (1 : ℝ) ≤ x := by exact_mod_cast hx1.le
      unfold chance; rw [min_eq_right this]; simp
    rw [this] at hL
    simp only [true_iff]
    by_contra hcon
    push Not at hcon
    rw [abs_of_nonneg (by linarith)] at h
    have := (abs_le.1 hL).2
    norm_num at *
    linarith
  · rw [if_neg hx1]
    push Not at hx1
    have hp := prob_error hA hx0 hx1
    have hpy : |(prob A x : ℝ) - chance y| ≤ (m + 5) / 2 ^ 52 := by
      have : (prob A x : ℝ) - chance y = (prob A x - chance x) + (chance x - chance y) := by ring
      rw [this]
      refine (abs_add_le _ _).trans ?_
      norm_num at *
      linarith
    change decide (u < prob A x) = true ↔ _
    rw [decide_eq_true_iff]
    have hc : u < prob A x ↔ (u : ℝ) < (prob A x : ℝ) := by exact_mod_cast Iff.rfl
    rw [hc]
    obtain ⟨p1, p2⟩ := abs_le.1 hpy
    rcases lt_abs.1 h with h | h
    · constructor <;> intro h' <;> linarith
    · constructor <;> intro h' <;> linarith

/-- C160: the chance grows with the score, is 0 for no score and 1 from the target on. -/
theorem C160_chance : chance 0 = 0 ∧ (∀ x, 1 ≤ x → chance x = 1) ∧ ∀ x y, 0 ≤ x → x ≤ y → chance x ≤ chance y := by
  refine ⟨by simp [chance], fun x hx => by simp [chance, min_eq_right hx], fun x y hx hxy => ?_⟩
  unfold chance
  have hp := Real.pi_pos
  have h0 : 0 ≤ min x 1 := le_min hx zero_le_one
  have h1 : min x 1 ≤ min y 1 := min_le_min_right _ hxy
  have h2 : min y 1 ≤ 1 := min_le_right _ _
  have hs : 0 ≤ Real.sin (Real.pi / 2 * min x 1) := Real.sin_nonneg_of_nonneg_of_le_pi (by positivity) (by nlinarith)
  refine pow_le_pow_left₀ hs (Real.sin_le_sin_of_le_of_le_pi_div_two (by nlinarith) (by nlinarith) (by nlinarith)) 2

/-! ## Cases -/

/-- Rounding halves to even, the machine's `pi`, and a sine with the accuracy asked for. -/
noncomputable def exArith : Arith :=
  ⟨round53, 884279719003555 / 2 ^ 48, fun z => (exists_rat_btwn (show Real.sin z - 1 / 2 ^ 52 < Real.sin z by norm_num)).choose⟩

theorem exArith_good : Good exArith := by
  refine ⟨round53_nearest, ?_, fun z => ?_⟩
  · have h1 := Real.pi_gt_d20
    have h2 := Real.pi_lt_d20
    simp only [exArith]
    push_cast
    rw [abs_le]
    norm_num at *
    constructor <;> linarith
  · have h := (exists_rat_btwn (show Real.sin z - 1 / 2 ^ 52 < Real.sin z by norm_num)).choose_spec
    simp only [exArith]
    rw [abs_le]
    constructor <;> linarith [h.1, h.2]

/-- Ten replacements with ratio 1 score 5, one with ratio 8 scores 7.5, as documented. -/
example : score exArith (List.replicate 10 1) = 5 ∧ score exArith [8] = 15 / 2 := by
  rw [C160_score_exact exArith_good _ (by decide) (by decide +kernel), C160_score_exact exArith_good _ (by decide) (by decide +kernel)]
  decide +kernel

example := C160_score exArith_good [0, 1, 0]

/-- Ten replacements with ratio 0 score less than one: 0.1 is not a float. -/
example : score ⟨round53, 3, id⟩ (List.replicate 10 0) = 1 - 1 / 2 ^ 53 := by decide +kernel

example : inquiry exArith [] 2 (1 / 2) = false := by
  have h := C160_decision exArith_good [] 2 (1 / 2) (by norm_num) (by norm_num) (by
    have : ((total [] / 2 : ℚ) : ℝ) = 0 := by simp [total]
    rw [this, C160_chance.1]; norm_num [abs_of_pos])
  rw [← Bool.not_eq_true, h]
  have : ((total [] / 2 : ℚ) : ℝ) = 0 := by simp [total]
  rw [this, C160_chance.1]; norm_num

example : inquiry exArith [1, 3] 2 (1 / 2) = true := by
  have hc : chance ((total [1, 3] / 2 : ℚ) : ℝ) = 1 :=
    C160_chance.2.1 _ (by have : total [1, 3] / 2 = 3 / 2 := by decide +kernel
                          rw [this]; norm_num)
  have h := C160_decision exArith_good [1, 3] 2 (1 / 2) (by norm_num) (by norm_num) (by rw [hc]; norm_num [abs_of_neg])
  rw [h, hc]; norm_num

end ReplacementRounded
end Ade
