import Verif.Props.Sampler
import Mathlib.MeasureTheory.Measure.Lebesgue.Basic
import Mathlib.MeasureTheory.Integral.DivergenceTheorem
import Mathlib.Analysis.Calculus.Deriv.Add
import Mathlib.Analysis.Calculus.Deriv.Mul
import Mathlib.Analysis.Calculus.Deriv.Pow

/-!
# Property C77: how likely the biased sampler is to choose each candidate

Probabilities are areas: the results of the two calls of `random.random()` behind one call of the sampler are a
point of the unit square, all parts of equal area being equally likely.
-/

set_option autoImplicit false

namespace Ade
namespace Sampler

open MeasureTheory Set

/-! ## Specification

A half-trapezoid distribution on `[0, 1]`: constant up to the corner, then falling linearly to zero. -/

/-- Where the density starts falling. -/
noncomputable def corner (rb : ℝ) : ℝ := max 0 (2 * rb - 1)

/-- Where it has fallen to zero. -/
noncomputable def finish (rb : ℝ) : ℝ := min 1 (2 * rb)

/-- The density up to the corner, such that the whole area is one. -/
noncomputable def height (rb : ℝ) : ℝ := 2 / (corner rb + finish rb)

/-- The density of the half-trapezoid distribution. -/
noncomputable def density (rb x : ℝ) : ℝ :=
  if x < corner rb then height rb
  else if x < finish rb then height rb * (finish rb - x) / (finish rb - corner rb)
  else 0

/-- The area under the density from `0` to `x`. -/
noncomputable def area (rb x : ℝ) : ℝ :=
  if x < corner rb then height rb * x
  else if x < finish rb then height rb * (x - (x - corner rb) ^ 2 / (2 * (finish rb - corner rb)))
  else 1

/-- The probability that the sampler, with candidates `K` in order of rank and bias `rb`, returns `k`. -/
noncomputable def prob (K : List ℕ) (rb : ℝ) (k : ℕ) : ℝ :=
  (volume : Measure (ℝ × ℝ)).real
    {p | p.1 ∈ Ico (0 : ℝ) 1 ∧ p.2 ∈ Ico (0 : ℝ) 1 ∧ call K rb ⟨p.1, p.2⟩ = some k}

/-! ## Geometry of the draws -/

theorem tri_lt_iff {w u x : ℝ} (hw : 0 < w) (hu0 : 0 ≤ u) (hx0 : 0 ≤ x) (hxw : x ≤ w) :
    triangular0 w u < x ↔ u < 1 - (1 - x / w) ^ 2 := by
  rw [triangular0_eq hu0]
  have hq0 : 0 ≤ x / w := div_nonneg hx0 hw.le
  have hq1 : x / w ≤ 1 := (div_le_one hw).2 hxw
  have h1 : w * (1 - Real.sqrt (1 - u)) < x ↔ 1 - x / w < Real.sqrt (1 - u) := by
    rw [← lt_div_iff₀' hw]
    constructor <;> intro h <;> linarith
  rw [h1, Real.lt_sqrt (by linarith)]
  constructor <;> intro h <;> linarith

/-- The draws for which the variate is below `x`. -/
def below (rb x : ℝ) : Set (ℝ × ℝ) :=
  {p | p.1 ∈ Ico (0 : ℝ) 1 ∧ p.2 ∈ Ico (0 : ℝ) 1 ∧ variate rb ⟨p.1, p.2⟩ < x}

theorem below_low {rb x : ℝ} (h0 : 0 < rb) (h1 : rb ≤ 1 / 2) (hx0 : 0 ≤ x) (hx : x ≤ 2 * rb) :
    below rb x = Ico 0 1 ×ˢ Ico 0 (1 - (1 - x / (2 * rb)) ^ 2) := by
  ext ⟨s, u⟩
  have hw : 0 < 2 * rb := by linarith
  simp only [below, mem_ofPred_eq, mem_prod]
  constructor
  · rintro ⟨hs, hu, hv⟩
    unfold variate at hv
    rw [if_neg (by linarith)] at hv
    exact ⟨hs, hu.1, (tri_lt_iff hw hu.1 hx0 hx).1 hv⟩
  · rintro ⟨hs, hu⟩
    have hu1 : u < 1 := by have := hu.2; nlinarith [sq_nonneg (1 - x / (2 * rb))]
    refine ⟨hs, ⟨hu.1, hu1⟩, ?_⟩
    unfold variate
    rw [if_neg (by linarith)]
    exact (tri_lt_iff hw hu.1 hx0 hx).2 hu.2

/-- The share of the triangular part. -/
noncomputable def share (c : ℝ) : ℝ := if 1 ≤ c then 0 else (1 - c) / (1 + c)

theorem share_mem {c : ℝ} (h0 : 0 < c) : 0 ≤ share c ∧ share c ≤ 1 := by
  unfold share
  split
  · exact ⟨le_rfl, zero_le_one⟩
  · rename_i h
    exact ⟨div_nonneg (by linarith) (by linarith), (div_le_one (by linarith)).2 (by linarith)⟩

theorem below_high {rb x : ℝ} (h0 : 1 / 2 < rb) :
    below rb x =
      Ico 0 (share (2 * rb - 1)) ×ˢ
        {u | u ∈ Ico (0 : ℝ) 1 ∧ (2 * rb - 1) + triangular0 (1 - (2 * rb - 1)) u < x} ∪
      Ico (share (2 * rb - 1)) 1 ×ˢ {u | u ∈ Ico (0 : ℝ) 1 ∧ (2 * rb - 1) * u < x} := by
  have hc : 2 * (rb - 1 / 2) = 2 * rb - 1 := by ring
  obtain ⟨p0, p1⟩ := share_mem (c := 2 * rb - 1) (by linarith)
  ext ⟨s, u⟩
  have hv : variate rb ⟨s, u⟩ = if s < share (2 * rb - 1) then
      (2 * rb - 1) + triangular0 (1 - (2 * rb - 1)) u else (2 * rb - 1) * u := by
    unfold variate trapz share
    rw [if_pos h0, hc]
    simp
  simp only [below, mem_ofPred_eq, mem_union, mem_prod, hv, mem_Ico]
  by_cases hs : s < share (2 * rb - 1)
  · rw [if_pos hs]
    constructor
    · rintro ⟨h1, h2, h3⟩; exact .inl ⟨⟨h1.1, hs⟩, h2, h3⟩
    · rintro (⟨h1, h2, h3⟩ | ⟨h1, _⟩)
      · exact ⟨⟨h1.1, by linarith⟩, h2, h3⟩
      · exact absurd hs (not_lt.2 h1.1)
  · rw [if_neg hs]
    constructor
    · rintro ⟨h1, h2, h3⟩; exact .inr ⟨⟨not_lt.1 hs, h1.2⟩, h2, h3⟩
    · rintro (⟨h1, _⟩ | ⟨h1, h2, h3⟩)
      · exact absurd h1.2 hs
      · exact ⟨⟨by linarith [h1.1], h1.2⟩, h2, h3⟩

theorem slice_tri_empty {c x : ℝ} (hc1 : c ≤ 1) (hx : x ≤ c) :
    {u | u ∈ Ico (0 : ℝ) 1 ∧ c + triangular0 (1 - c) u < x} = ∅ := by
  ext u
  simp only [mem_ofPred_eq, mem_empty_iff_false, iff_false, not_and, not_lt]
  intro hu
  have := triangular0_nonneg (h := 1 - c) (by linarith) hu.1 hu.2
  linarith

theorem slice_tri {c x : ℝ} (hc1 : c < 1) (hx : c ≤ x) (hx1 : x ≤ 1) :
    {u | u ∈ Ico (0 : ℝ) 1 ∧ c + triangular0 (1 - c) u < x} = Ico 0 (1 - (1 - (x - c) / (1 - c)) ^ 2) := by
  have hw : 0 < 1 - c := by linarith
  ext u
  simp only [mem_ofPred_eq, mem_Ico]
  constructor
  · rintro ⟨hu, hv⟩
    exact ⟨hu.1, (tri_lt_iff hw hu.1 (by linarith) (by linarith)).1 (by linarith)⟩
  · rintro ⟨hu, hv⟩
    have hu1 : u < 1 := by nlinarith [sq_nonneg (1 - (x - c) / (1 - c))]
    refine ⟨⟨hu, hu1⟩, ?_⟩
    have := (tri_lt_iff (x := x - c) hw hu (by linarith) (by linarith)).2 hv
    linarith

theorem slice_flat {c x : ℝ} (hc0 : 0 < c) (hx : x ≤ c) :
    {u | u ∈ Ico (0 : ℝ) 1 ∧ c * u < x} = Ico 0 (x / c) := by
  have hq : x / c ≤ 1 := (div_le_one hc0).2 hx
  ext u
  simp only [mem_ofPred_eq, mem_Ico, lt_div_iff₀' hc0]
  constructor
  · rintro ⟨hu, hv⟩; exact ⟨hu.1, hv⟩
  · rintro ⟨hu, hv⟩
    refine ⟨⟨hu, ?_⟩, hv⟩
    by_contra h
    nlinarith

theorem slice_flat_all {c x : ℝ} (hc0 : 0 < c) (hx : c ≤ x) :
    {u | u ∈ Ico (0 : ℝ) 1 ∧ c * u < x} = Ico 0 1 := by
  ext u
  simp only [mem_ofPred_eq, mem_Ico, and_iff_left_iff_imp]
  rintro ⟨_, hu⟩
  nlinarith

/-- The area of a rectangle. -/
theorem real_rect {a b c d : ℝ} (h1 : a ≤ b) (h2 : c ≤ d) :
    (volume : Measure (ℝ × ℝ)).real (Ico a b ×ˢ Ico c d) = (b - a) * (d - c) := by
  rw [Measure.real, Measure.volume_eq_prod, Measure.prod_prod, Real.volume_Ico, Real.volume_Ico,
    ENNReal.toReal_mul, ENNReal.toReal_ofReal (by linarith), ENNReal.toReal_ofReal (by linarith)]

theorem measurable_rect {a b c d : ℝ} : MeasurableSet (Ico a b ×ˢ Ico c d : Set (ℝ × ℝ)) :=
  measurableSet_Ico.prod measurableSet_Ico

theorem finite_rect {a b c d : ℝ} : (volume : Measure (ℝ × ℝ)) (Ico a b ×ˢ Ico c d) ≠ ⊤ := by
  rw [Measure.volume_eq_prod, Measure.prod_prod, Real.volume_Ico, Real.volume_Ico]
  exact ENNReal.mul_ne_top ENNReal.ofReal_ne_top ENNReal.ofReal_ne_top

/-- The probability that the variate is below `x`, and that this event has one. -/
theorem below_area {rb x : ℝ} (h0 : 0 < rb) (h1 : rb ≤ 1) (hx0 : 0 ≤ x) (hx1 : x ≤ 1) :
    MeasurableSet (below rb x) ∧ (volume : Measure (ℝ × ℝ)).real (below rb x) = area rb x := by
  by_cases hh : rb ≤ 1 / 2
  · -- triangular distribution
    have hco : corner rb = 0 := max_eq_left (by linarith)
    have hfi : finish rb = 2 * rb := min_eq_right (by linarith)
    have hw : 0 < 2 * rb := by linarith
    have hred : below rb x = below rb (min x (2 * rb)) := by
      rcases le_total x (2 * rb) with h | h
      · rw [min_eq_left h]
      · rw [min_eq_right h]
        ext ⟨s, u⟩
        simp only [below, mem_ofPred_eq]
        constructor
        · rintro ⟨a, b, c⟩
          exact ⟨a, b, variate_lt h0 hh ⟨a.1, a.2, b.1, b.2⟩⟩
        · rintro ⟨a, b, c⟩
          exact ⟨a, b, lt_of_lt_of_le c h⟩
    have hm0 : 0 ≤ min x (2 * rb) := le_min hx0 hw.le
    have hb := below_low h0 hh hm0 (min_le_right x (2 * rb))
    rw [hred, hb]
    refine ⟨measurable_rect, ?_⟩
    have hq0 : 0 ≤ min x (2 * rb) / (2 * rb) := div_nonneg hm0 hw.le
    have hq1 : min x (2 * rb) / (2 * rb) ≤ 1 := (div_le_one hw).2 (min_le_right _ _)
    rw [real_rect (by norm_num) (by nlinarith)]
    unfold area height
    rw [hco, hfi, if_neg (by linarith)]
    split
    · rename_i h
      rw [min_eq_left h.le]
      field_simp
      ring
    · rename_i h
      rw [min_eq_right (not_lt.1 h), div_self hw.ne']
      ring
  · -- trapezoid
    have hh' : 1 / 2 < rb := not_le.1 hh
    have hco : corner rb = 2 * rb - 1 := max_eq_right (by linarith)
    have hfi : finish rb = 1 := min_eq_left (by linarith)
    rw [below_high hh']
    have hc0 : 0 < 2 * rb - 1 := by linarith
    have hc1 : 2 * rb - 1 ≤ 1 := by linarith
    obtain ⟨p0, p1⟩ := share_mem hc0
    unfold area height
    rw [hco, hfi]
    generalize 2 * rb - 1 = c at *
    have hdisj : ∀ A B : Set ℝ, Disjoint (Ico 0 (share c) ×ˢ A) (Ico (share c) 1 ×ˢ B) := by
      intro A B
      rw [Set.disjoint_left]
      rintro ⟨s, u⟩ h1 h2
      exact absurd h1.1.2 (not_lt.2 h2.1.1)
    rcases lt_or_ge x c with hx | hx
    · rw [slice_tri_empty hc1 hx.le, slice_flat hc0 hx.le, if_pos hx, prod_empty, empty_union]
      refine ⟨measurable_rect, ?_⟩
      rw [real_rect p1 (div_nonneg hx0 hc0.le)]
      unfold share
      split
      · have : c = 1 := by linarith
        subst this; norm_num
      · have : (1 : ℝ) + c ≠ 0 := by linarith
        field_simp
        ring
    · rw [slice_flat_all hc0 hx, if_neg (not_lt.2 hx)]
      rcases eq_or_lt_of_le hc1 with rfl | hlt
      · have hx' : x = 1 := by linarith
        have : share 1 = 0 := by unfold share; simp
        rw [this, Ico_self, empty_prod, empty_union]
        refine ⟨measurable_rect, ?_⟩
        rw [real_rect (by norm_num) (by norm_num), if_neg (by linarith)]
        norm_num
      · rw [slice_tri hlt hx hx1]
        refine ⟨measurable_rect.union measurable_rect, ?_⟩
        have hw : 0 < 1 - c := by linarith
        have hq0 : 0 ≤ (x - c) / (1 - c) := div_nonneg (by linarith) hw.le
        have hq1 : (x - c) / (1 - c) ≤ 1 := (div_le_one hw).2 (by linarith)
        rw [measureReal_union (hdisj _ _) measurable_rect finite_rect finite_rect, real_rect p0 (by nlinarith),
          real_rect p1 (by norm_num)]
        unfold share
        rw [if_neg (by linarith)]
        have h2 : (1 : ℝ) + c ≠ 0 := by linarith
        have h3 : (c : ℝ) + 1 ≠ 0 := by linarith
        split
        · field_simp
          ring
        · have hx' : x = 1 := by linarith
          subst hx'
          field_simp
          ring

theorem below_finite (rb x : ℝ) : (volume : Measure (ℝ × ℝ)) (below rb x) ≠ ⊤ := by
  refine ne_top_of_le_ne_top (finite_rect (a := 0) (b := 1) (c := 0) (d := 1)) (measure_mono ?_)
  rintro ⟨s, u⟩ h
  exact ⟨h.1, h.2.1⟩

/-! ## The half-trapezoid distribution -/

theorem shape {rb : ℝ} (h0 : 0 < rb) (h1 : rb ≤ 1) :
    0 ≤ corner rb ∧ corner rb ≤ finish rb ∧ 0 < finish rb ∧ finish rb ≤ 1 ∧ 0 < height rb ∧
      height rb * (corner rb + finish rb) = 2 := by
  have a1 : 0 ≤ corner rb := le_max_left _ _
  have a2 : 0 < finish rb := lt_min (by norm_num) (by linarith)
  have a3 : corner rb ≤ finish rb := max_le a2.le (le_min (by linarith) (by linarith))
  have a4 : 0 < corner rb + finish rb := by linarith
  refine ⟨a1, a3, a2, min_le_left _ _, div_pos (by norm_num) a4, ?_⟩
  unfold height
  field_simp

/-- The density falls. -/
theorem density_anti {rb : ℝ} (h0 : 0 < rb) (h1 : rb ≤ 1) {x y : ℝ} (hxy : x ≤ y) :
    density rb y ≤ density rb x := by
  obtain ⟨_, hcw, _, _, hh, _⟩ := shape h0 h1
  unfold density
  by_cases hy : y < corner rb
  · rw [if_pos hy, if_pos (by linarith)]
  · rw [if_neg hy]
    by_cases hy2 : y < finish rb
    · rw [if_pos hy2]
      have hw : 0 < finish rb - corner rb := by linarith
      by_cases hx : x < corner rb
      · rw [if_pos hx, div_le_iff₀ hw]
        exact mul_le_mul_of_nonneg_left (by linarith) hh.le
      · rw [if_neg hx, if_pos (by linarith)]
        apply div_le_div_of_nonneg_right _ hw.le
        exact mul_le_mul_of_nonneg_left (by linarith) hh.le
    · rw [if_neg hy2]
      by_cases hx : x < corner rb
      · rw [if_pos hx]; exact hh.le
      · rw [if_neg hx]
        split
        · exact div_nonneg (mul_nonneg hh.le (by linarith)) (by linarith)
        · exact le_rfl

/-- The area between `x` and `y` lies between those of two rectangles. -/
theorem area_bounds {rb : ℝ} (h0 : 0 < rb) (h1 : rb ≤ 1) {x y : ℝ} (hxy : x ≤ y) :
    density rb y * (y - x) ≤ area rb y - area rb x ∧ area rb y - area rb x ≤ density rb x * (y - x) := by
  obtain ⟨hc0, hcw, hw0, hw1, hh, hone⟩ := shape h0 h1
  unfold density area
  generalize corner rb = c at *
  generalize finish rb = w at *
  generalize height rb = h at *
  by_cases hx : x < c
  · by_cases hy : y < c
    · simp only [if_pos hx, if_pos hy]
      constructor <;> nlinarith
    · simp only [if_pos hx, if_neg hy]
      by_cases hy2 : y < w
      · simp only [if_pos hy2]
        have hd : 0 < w - c := by linarith
        constructor
        · rw [div_mul_eq_mul_div, div_le_iff₀ hd]
          have : (h * (y - (y - c) ^ 2 / (2 * (w - c))) - h * x) * (w - c) =
              h * ((y - x) * (w - c) - (y - c) ^ 2 / 2) := by field_simp; ring
          rw [this, mul_assoc]
          refine mul_le_mul_of_nonneg_left ?_ hh.le
          nlinarith [mul_nonneg (show 0 ≤ y - c by linarith) (show 0 ≤ c - x by linarith), sq_nonneg (y - c)]
        · have : 0 ≤ (y - c) ^ 2 / (2 * (w - c)) := by positivity
          nlinarith
      · simp only [if_neg hy2]
        constructor
        · nlinarith
        · nlinarith
  · simp only [if_neg hx, if_neg (show ¬ y < c by linarith)]
    by_cases hx2 : x < w
    · have hd : 0 < w - c := by linarith
      simp only [if_pos hx2]
      by_cases hy2 : y < w
      · simp only [if_pos hy2]
        have e : (h * (y - (y - c) ^ 2 / (2 * (w - c))) - h * (x - (x - c) ^ 2 / (2 * (w - c)))) * (w - c) =
            h * ((y - x) * (w - c) - ((y - c) ^ 2 - (x - c) ^ 2) / 2) := by field_simp; ring
        constructor
        · rw [div_mul_eq_mul_div, div_le_iff₀ hd, e, mul_assoc]
          refine mul_le_mul_of_nonneg_left ?_ hh.le
          nlinarith [sq_nonneg (y - x)]
        · rw [div_mul_eq_mul_div, le_div_iff₀ hd, e, mul_assoc]
          refine mul_le_mul_of_nonneg_left ?_ hh.le
          nlinarith [sq_nonneg (y - x)]
      · simp only [if_neg hy2]
        have e : (1 - h * (x - (x - c) ^ 2 / (2 * (w - c)))) * (w - c) = h * ((w - x) ^ 2 / 2) := by
          have e1 : (1 - h * (x - (x - c) ^ 2 / (2 * (w - c)))) * (w - c) =
            (w - c) - h * (x * (w - c) - (x - c) ^ 2 / 2) := by field_simp
          rw [e1]
          linear_combination (-(w - c) / 2) * hone
        constructor
        · have : 0 ≤ (1 - h * (x - (x - c) ^ 2 / (2 * (w - c)))) * (w - c) := by
            rw [e]; positivity
          have := nonneg_of_mul_nonneg_left this hd
          linarith
        · rw [div_mul_eq_mul_div, le_div_iff₀ hd, e, mul_assoc]
          refine mul_le_mul_of_nonneg_left ?_ hh.le
          nlinarith [sq_nonneg (y - x)]
    · simp only [if_neg hx2, if_neg (show ¬ y < w by linarith)]
      constructor <;> simp

theorem area_zero {rb : ℝ} (h0 : 0 < rb) (h1 : rb ≤ 1) : area rb 0 = 0 := by
  obtain ⟨hc0, hcw, hw0, hw1, hh, hone⟩ := shape h0 h1
  unfold area
  split
  · simp
  · rename_i h
    have : corner rb = 0 := by linarith
    rw [this]; simp

theorem area_one {rb : ℝ} (h0 : 0 < rb) (h1 : rb ≤ 1) {x : ℝ} (hx : 1 ≤ x) : area rb x = 1 := by
  obtain ⟨hc0, hcw, hw0, hw1, hh, hone⟩ := shape h0 h1
  unfold area
  rw [if_neg (by linarith), if_neg (by linarith)]

theorem density_nonneg {rb : ℝ} (h0 : 0 < rb) (h1 : rb ≤ 1) (x : ℝ) : 0 ≤ density rb x := by
  obtain ⟨hc0, hcw, hw0, hw1, hh, hone⟩ := shape h0 h1
  unfold density
  split
  · exact hh.le
  · split
    · exact div_nonneg (mul_nonneg hh.le (by linarith)) (by linarith)
    · exact le_rfl

theorem area_mono {rb : ℝ} (h0 : 0 < rb) (h1 : rb ≤ 1) {x y : ℝ} (hxy : x ≤ y) : area rb x ≤ area rb y := by
  have := (area_bounds h0 h1 hxy).1
  have := mul_nonneg (density_nonneg h0 h1 y) (sub_nonneg.2 hxy)
  linarith

/-! ## C77 -/

/-- The draws for which the position `j` is chosen. -/
theorem chosen_eq {K : List ℕ} (hK : K.Nodup) {rb : ℝ} (h0 : 0 < rb) (h1 : rb ≤ 1) {j : ℕ}
    (hj : j < K.length) :
    {p : ℝ × ℝ | p.1 ∈ Ico (0 : ℝ) 1 ∧ p.2 ∈ Ico (0 : ℝ) 1 ∧ call K rb ⟨p.1, p.2⟩ = some K[j]} =
      below rb ((j + 1 : ℕ) / K.length) \ below rb ((j : ℕ) / K.length) := by
  have hn : (0 : ℝ) < K.length := by exact_mod_cast (by omega : 0 < K.length)
  ext ⟨s, u⟩
  simp only [below, mem_ofPred_eq, mem_sdiff, not_and, not_lt, lt_div_iff₀ hn]
  have key : ∀ (_ : s ∈ Ico (0 : ℝ) 1) (_ : u ∈ Ico (0 : ℝ) 1), call K rb ⟨s, u⟩ = some K[j] ↔
      ((j : ℕ) : ℝ) ≤ variate rb ⟨s, u⟩ * K.length ∧ variate rb ⟨s, u⟩ * K.length < ((j + 1 : ℕ) : ℝ) := by
    intro hs hu
    have hv := variate_mem h0.le h1 (d := ⟨s, u⟩) ⟨hs.1, hs.2, hu.1, hu.2⟩
    have hnn : 0 ≤ variate rb ⟨s, u⟩ * K.length := mul_nonneg hv.1 hn.le
    rw [show (((j + 1 : ℕ) : ℝ)) = (j : ℝ) + 1 by push_cast; ring, ← Nat.floor_eq_iff hnn]
    rw [call_of_nonneg hnn]
    constructor
    · intro h
      rw [List.getElem?_eq_some_iff] at h
      obtain ⟨hlt, h⟩ := h
      exact (List.Nodup.getElem_inj_iff hK).1 h
    · intro h
      rw [h, List.getElem?_eq_getElem hj]
  constructor
  · rintro ⟨hs, hu, hc⟩
    obtain ⟨k1, k2⟩ := (key hs hu).1 hc
    exact ⟨⟨hs, hu, k2⟩, fun _ _ => k1⟩
  · rintro ⟨⟨hs, hu, k2⟩, k1⟩
    exact ⟨hs, hu, (key hs hu).2 ⟨k1 hs hu, k2⟩⟩

theorem frac_mem {n j : ℕ} (hj : j ≤ n) (hn : 0 < n) : (0 : ℝ) ≤ (j : ℕ) / n ∧ ((j : ℕ) : ℝ) / n ≤ 1 := by
  have hn' : (0 : ℝ) < n := by exact_mod_cast hn
  exact ⟨by positivity, (div_le_one hn').2 (by exact_mod_cast hj)⟩

/-- The probability of position `j` is the area over the interval from `j/n` to `(j+1)/n`. -/
theorem prob_area {K : List ℕ} (hK : K.Nodup) {rb : ℝ} (h0 : 0 < rb) (h1 : rb ≤ 1) {j : ℕ}
    (hj : j < K.length) :
    prob K rb K[j] = area rb ((j + 1 : ℕ) / K.length) - area rb ((j : ℕ) / K.length) := by
  have hn : 0 < K.length := by omega
  obtain ⟨a1, a2⟩ := frac_mem (n := K.length) (j := j) hj.le hn
  obtain ⟨b1, b2⟩ := frac_mem (n := K.length) (j := j + 1) hj hn
  obtain ⟨m1, e1⟩ := below_area h0 h1 a1 a2
  obtain ⟨_, e2⟩ := below_area h0 h1 b1 b2
  unfold prob
  rw [chosen_eq hK h0 h1 hj, measureReal_sdiff _ m1 (below_finite _ _), e1, e2]
  rintro ⟨s, u⟩ ⟨h1, h2, h3⟩
  refine ⟨h1, h2, lt_of_lt_of_le h3 ?_⟩
  exact div_le_div_of_nonneg_right (by push_cast; linarith) (by positivity)

/-- The area is the integral of the density. -/
theorem area_integral {rb : ℝ} (h0 : 0 < rb) (h1 : rb ≤ 1) {a b : ℝ} :
    ∫ x in a..b, density rb x = area rb b - area rb a := by
  have hlip : ∀ x y, x ≤ y → |area rb y - area rb x| ≤ height rb * (y - x) := by
    intro x y hxy
    obtain ⟨l, u⟩ := area_bounds h0 h1 hxy
    obtain ⟨hc0, hcw, hw0, hw1, hh, hone⟩ := shape h0 h1
    have hd : density rb x ≤ height rb := by
      have := density_anti h0 h1 (min_le_left x (corner rb - 1))
      unfold density at this ⊢
      rw [if_pos (show min x (corner rb - 1) < corner rb by
        exact lt_of_le_of_lt (min_le_right _ _) (by linarith))] at this
      exact this
    have := density_nonneg h0 h1 y
    rw [abs_of_nonneg (by nlinarith)]
    nlinarith
  have hcont : Continuous (area rb) := by
    rw [Metric.continuous_iff]
    intro x ε hε
    obtain ⟨hc0, hcw, hw0, hw1, hh, hone⟩ := shape h0 h1
    refine ⟨ε / height rb, by positivity, fun y hy => ?_⟩
    rw [Real.dist_eq] at hy ⊢
    have hb : |area rb y - area rb x| ≤ height rb * |y - x| := by
      rcases le_total x y with h | h
      · rw [abs_of_nonneg (sub_nonneg.2 h)]; exact hlip x y h
      · rw [abs_sub_comm, abs_sub_comm y x, abs_of_nonneg (sub_nonneg.2 h)]; exact hlip y x h
    calc |area rb y - area rb x| ≤ height rb * |y - x| := hb
      _ < height rb * (ε / height rb) := mul_lt_mul_of_pos_left hy hh
      _ = ε := by field_simp
  have hanti : Antitone (density rb) := fun x y h => density_anti h0 h1 h
  refine integral_eq_of_hasDerivAt_off_countable (area rb) (density rb)
    (s := {corner rb, finish rb}) (by simp) hcont.continuousOn ?_ hanti.intervalIntegrable
  rintro x ⟨_, hx⟩
  simp only [mem_insert_iff, mem_singleton_iff, not_or] at hx
  rcases lt_trichotomy x (corner rb) with h | h | h
  · have e : area rb =ᶠ[nhds x] fun y => height rb * y := by
      filter_upwards [Iio_mem_nhds h] with y hy
      unfold area; rw [if_pos (mem_Iio.1 hy)]
    have hd : density rb x = height rb := by unfold density; rw [if_pos h]
    rw [hd]
    refine HasDerivAt.congr_of_eventuallyEq ?_ e
    simpa using (hasDerivAt_id x).const_mul (height rb)
  · exact absurd h hx.1
  · rcases lt_trichotomy x (finish rb) with h2 | h2 | h2
    · have hw : 0 < finish rb - corner rb := by linarith
      have e : area rb =ᶠ[nhds x]
          fun y => height rb * (y - (y - corner rb) ^ 2 / (2 * (finish rb - corner rb))) := by
        filter_upwards [Ioo_mem_nhds h h2] with y hy
        unfold area
        rw [if_neg (not_lt.2 hy.1.le), if_pos hy.2]
      have hd : density rb x = height rb * (1 - (2 * (x - corner rb)) / (2 * (finish rb - corner rb))) := by
        unfold density
        rw [if_neg (not_lt.2 h.le), if_pos h2]
        field_simp
        ring
      rw [hd]
      refine HasDerivAt.congr_of_eventuallyEq ?_ e
      refine HasDerivAt.const_mul _ ?_
      have h2' : HasDerivAt (fun y : ℝ => (y - corner rb) ^ 2 / (2 * (finish rb - corner rb)))
          (2 * (x - corner rb) / (2 * (finish rb - corner rb))) x := by
        refine HasDerivAt.div_const ?_ _
        have := HasDerivAt.fun_pow (HasDerivAt.sub_const (corner rb) (hasDerivAt_id' x)) 2
        simpa using this
      exact HasDerivAt.sub (hasDerivAt_id' x) h2'
    · exact absurd h2 hx.2
    · have e : area rb =ᶠ[nhds x] fun _ => 1 := by
        filter_upwards [Ioi_mem_nhds h2] with y hy
        unfold area
        have hy' : finish rb < y := hy
        have := (shape h0 h1).2.1
        rw [if_neg (by linarith), if_neg (by linarith)]
      have hd : density rb x = 0 := by
        unfold density
        rw [if_neg (not_lt.2 h.le), if_neg (not_lt.2 h2.le)]
      rw [hd]
      exact (hasDerivAt_const x (1 : ℝ)).congr_of_eventuallyEq e

/-- C77: the candidate at position `j` of `n` in the ranking is chosen with the probability that the half-trapezoid
distribution gives to the interval from `j/n` to `(j+1)/n`. -/
theorem C77_probability (K : List ℕ) (hK : K.Nodup) (rb : ℝ) (h0 : 0 < rb) (h1 : rb ≤ 1) (j : ℕ)
    (hj : j < K.length) :
    prob K rb K[j] = ∫ x in ((j : ℕ) / K.length : ℝ)..((j + 1 : ℕ) / K.length), density rb x := by
  rw [area_integral h0 h1, prob_area hK h0 h1 hj]

/-- C77: the best `m` candidates together are chosen with the probability of the interval from `0` to `m/n`. -/
theorem best_share {K : List ℕ} (hK : K.Nodup) {rb : ℝ} (h0 : 0 < rb) (h1 : rb ≤ 1) (m : ℕ)
    (hm : m ≤ K.length) : ((K.take m).map (prob K rb)).sum = area rb ((m : ℕ) / K.length) := by
  induction m with
  | zero => simp [area_zero h0 h1]
  | succ m ih =>
    rw [List.take_add_one, List.getElem?_eq_getElem (by omega), Option.toList_some, List.map_append,
      List.sum_append, ih (by omega)]
    simp only [List.map_cons, List.map_nil, List.sum_cons, List.sum_nil, add_zero]
    rw [prob_area hK h0 h1 (by omega)]
    ring

/-- C77: the probabilities of the candidates add up to one. -/
theorem C77_total (K : List ℕ) (hK : K.Nodup) (hne : K ≠ []) (rb : ℝ) (h0 : 0 < rb) (h1 : rb ≤ 1) :
    (K.map (prob K rb)).sum = 1 := by
  have h := best_share hK h0 h1 K.length le_rfl
  rw [List.take_length] at h
  have hn : (0 : ℝ) < K.length := by exact_mod_cast List.length_pos_iff.2 hne
  rw [h, div_self hn.ne', area_one h0 h1 le_rfl]

/-- C77: a candidate is never more likely to be chosen than a better one. -/
theorem C77_better_more_likely (K : List ℕ) (hK : K.Nodup) (rb : ℝ) (h0 : 0 < rb) (h1 : rb ≤ 1) (i j : ℕ)
    (hij : i ≤ j) (hj : j < K.length) : prob K rb K[j] ≤ prob K rb K[i] := by
  rcases eq_or_lt_of_le hij with rfl | hlt
  · exact le_rfl
  have hn : (0 : ℝ) < K.length := by exact_mod_cast (by omega : 0 < K.length)
  have step : ∀ k : ℕ, ((k + 1 : ℕ) : ℝ) / K.length - (k : ℕ) / K.length = 1 / K.length := by
    intro k; rw [← sub_div]; push_cast; ring
  rw [prob_area hK h0 h1 hj, prob_area hK h0 h1 (by omega)]
  have a := (area_bounds h0 h1 (x := (j : ℕ) / K.length) (y := (j + 1 : ℕ) / K.length)
    (div_le_div_of_nonneg_right (by push_cast; linarith) hn.le)).2
  have b := (area_bounds h0 h1 (x := (i : ℕ) / K.length) (y := (i + 1 : ℕ) / K.length)
    (div_le_div_of_nonneg_right (by push_cast; linarith) hn.le)).1
  have c := density_anti h0 h1 (x := (i + 1 : ℕ) / K.length) (y := (j : ℕ) / K.length)
    (div_le_div_of_nonneg_right (by exact_mod_cast hlt) hn.le)
  rw [step] at a b
  have : (0 : ℝ) ≤ 1 / K.length := by positivity
  nlinarith

/-- The area up to the corner. -/
theorem area_flat {rb : ℝ} (h0 : 1 / 2 < rb) (h1 : rb ≤ 1) {x : ℝ} (hx : x ≤ 2 * rb - 1) :
    area rb x = x / rb := by
  have hco : corner rb = 2 * rb - 1 := max_eq_right (by linarith)
  have hfi : finish rb = 1 := min_eq_left (by linarith)
  have h0' : 0 < rb := by linarith
  unfold area height
  rw [hco, hfi]
  rcases lt_or_eq_of_le hx with h | h
  · rw [if_pos h]; field_simp; ring
  · rw [if_neg (by linarith)]
    split
    · rw [h]; field_simp; ring
    · have : rb = 1 := by linarith
      rw [h, this]; norm_num

/-- C77: above 0.5 the probability takes longer to start dropping: it is the same for all candidates in the first
part of the ranking, of the relative length `2 rb - 1`. -/
theorem C77_flat_part (K : List ℕ) (hK : K.Nodup) (rb : ℝ) (h0 : 1 / 2 < rb) (h1 : rb ≤ 1) (j : ℕ)
    (hj : j < K.length) (hflat : ((j + 1 : ℕ) : ℝ) / K.length ≤ 2 * rb - 1) :
    prob K rb K[j] = 1 / (rb * K.length) := by
  have hn : (0 : ℝ) < K.length := by exact_mod_cast (by omega : 0 < K.length)
  have h0' : 0 < rb := by linarith
  have hco : corner rb = 2 * rb - 1 := max_eq_right (by linarith)
  have hfi : finish rb = 1 := min_eq_left (by linarith)
  have hlt : ((j : ℕ) : ℝ) / K.length < ((j + 1 : ℕ) : ℝ) / K.length :=
    div_lt_div_of_pos_right (by push_cast; linarith) hn
  rw [prob_area hK h0' h1 hj]
  rw [area_flat h0 h1 hflat, area_flat h0 h1 (by linarith)]
  push_cast
  field_simp
  ring

/-- C77: with `rb = 1` it does not drop at all. -/
theorem C77_one_uniform (K : List ℕ) (hK : K.Nodup) (j : ℕ) (hj : j < K.length) :
    prob K 1 K[j] = 1 / K.length := by
  have hn : (0 : ℝ) < K.length := by exact_mod_cast (by omega : 0 < K.length)
  rw [C77_flat_part K hK 1 (by norm_num) le_rfl j hj]
  · rw [one_mul]
  · rw [div_le_iff₀ hn]
    have : ((j + 1 : ℕ) : ℝ) ≤ K.length := by exact_mod_cast hj
    linarith

/-- C77: up to 0.5 it drops from the start: as long as a candidate can be chosen at all, it is strictly less likely
to be chosen than the next better one. -/
theorem C77_drops_at_once (K : List ℕ) (hK : K.Nodup) (rb : ℝ) (h0 : 0 < rb) (h1 : rb ≤ 1 / 2) (j : ℕ)
    (hj : j + 1 < K.length) (hpos : 0 < prob K rb (K[j]'(by omega))) :
    prob K rb K[j + 1] < prob K rb (K[j]'(by omega)) := by
  have hn : (0 : ℝ) < K.length := by exact_mod_cast (by omega : 0 < K.length)
  have h1' : rb ≤ 1 := by linarith
  have hco : corner rb = 0 := max_eq_left (by linarith)
  have hfi : finish rb = 2 * rb := min_eq_right (by linarith)
  rw [prob_area hK h0 h1' (show j < K.length by omega)] at hpos ⊢
  rw [prob_area hK h0 h1' hj]
  have hx0 : (0 : ℝ) ≤ (j : ℕ) / K.length := by positivity
  have e1 : ((j + 1 : ℕ) : ℝ) / K.length = (j : ℕ) / K.length + 1 / K.length := by
    push_cast; rw [add_div]
  have e2 : ((j + 1 + 1 : ℕ) : ℝ) / K.length = (j : ℕ) / K.length + 2 * (1 / K.length) := by
    push_cast; ring
  rw [e1] at hpos ⊢
  rw [e2]
  have hd : (0 : ℝ) < 1 / K.length := by positivity
  have ea : ∀ x, 0 ≤ x → area rb x = if x < 2 * rb then 1 - (1 - x / (2 * rb)) ^ 2 else 1 := by
    intro x hx
    unfold area height
    rw [hco, hfi, if_neg (by linarith)]
    split
    · field_simp; ring
    · rfl
  clear e1 e2
  generalize ((j : ℕ) : ℝ) / K.length = x at *
  generalize (1 : ℝ) / K.length = d at *
  have hw : 0 < 2 * rb := by linarith
  rw [ea x hx0, ea (x + d) (by linarith)] at hpos ⊢
  rw [ea (x + 2 * d) (by linarith)]
  generalize 2 * rb = w at *
  have q : ∀ y, (1 - (1 - y / w) ^ 2) = (2 * w * y - y ^ 2) / w ^ 2 := by intro y; field_simp; ring
  have hw2 : 0 < w ^ 2 := by positivity
  have qone : (1 : ℝ) = w ^ 2 / w ^ 2 := (div_self hw2.ne').symm
  by_cases hx : x < w
  · rw [if_pos hx] at hpos ⊢
    by_cases hx1 : x + d < w
    · rw [if_pos hx1] at hpos ⊢
      by_cases hx2 : x + 2 * d < w
      · rw [if_pos hx2]
        rw [q, q, q, ← sub_div, ← sub_div]
        apply div_lt_div_of_pos_right _ hw2
        nlinarith
      · rw [if_neg hx2]
        nth_rewrite 1 [qone]
        rw [q, q, ← sub_div, ← sub_div]
        apply div_lt_div_of_pos_right _ hw2
        nlinarith
    · rw [if_neg hx1] at hpos ⊢
      rw [if_neg (by linarith)]
      linarith
  · rw [if_neg hx, if_neg (by linarith)] at hpos
    exact absurd hpos (by simp)

theorem area_low {rb : ℝ} (h0 : 0 < rb) (h1 : rb ≤ 1 / 2) {x : ℝ} (hx : 0 ≤ x) :
    area rb x = if x < 2 * rb then 1 - (1 - x / (2 * rb)) ^ 2 else 1 := by
  have hco : corner rb = 0 := max_eq_left (by linarith)
  have hfi : finish rb = 2 * rb := min_eq_right (by linarith)
  unfold area height
  rw [hco, hfi, if_neg (by linarith)]
  split
  · field_simp; ring
  · rfl

theorem area_high {rb : ℝ} (h0 : 1 / 2 ≤ rb) (h1 : rb ≤ 1) (x : ℝ) :
    area rb x = if x < 2 * rb - 1 then x / rb else if x < 1 then 1 - (1 - x) ^ 2 / (1 - (2 * rb - 1) ^ 2) else 1 := by
  have hco : corner rb = 2 * rb - 1 := max_eq_right (by linarith)
  have hfi : finish rb = 1 := min_eq_left (by linarith)
  unfold area height
  rw [hco, hfi]
  split
  · have : rb ≠ 0 := by linarith
    field_simp; ring
  · split
    · have a : rb ≠ 0 := by linarith
      have b : (1 : ℝ) - (2 * rb - 1) ≠ 0 := by linarith
      have c : (1 : ℝ) - (2 * rb - 1) ^ 2 ≠ 0 := by
        have : (1 : ℝ) - (2 * rb - 1) ^ 2 = 4 * rb * (1 - rb) := by ring
        rw [this]
        have : (1 - rb) ≠ 0 := by linarith
        positivity
      have e : (1 : ℝ) - (2 * rb - 1) ^ 2 = (1 - (2 * rb - 1)) * (2 * rb) := by ring
      rw [e]
      field_simp
      ring
    · rfl

theorem area_rb_anti {rb rb' x : ℝ} (h0 : 0 < rb) (h : rb ≤ rb') (h1 : rb' ≤ 1) (hx0 : 0 ≤ x) :
    area rb' x ≤ area rb x := by
  have low : ∀ a b : ℝ, 0 < a → a ≤ b → b ≤ 1 / 2 → area b x ≤ area a x := by
    intro a b ha hab hb
    rw [area_low ha (by linarith) hx0, area_low (by linarith) hb hx0]
    by_cases h1 : x < 2 * a
    · rw [if_pos h1, if_pos (by linarith)]
      have : x / (2 * b) ≤ x / (2 * a) := div_le_div_of_nonneg_left hx0 (by linarith) (by linarith)
      have : x / (2 * a) ≤ 1 := (div_le_one (by linarith)).2 h1.le
      nlinarith
    · rw [if_neg h1]
      split
      · nlinarith [sq_nonneg (1 - x / (2 * b))]
      · exact le_rfl
  have high : ∀ a b : ℝ, 1 / 2 ≤ a → a ≤ b → b ≤ 1 → area b x ≤ area a x := by
    intro a b ha hab hb
    rw [area_high ha (by linarith), area_high (by linarith) hb]
    by_cases hx1 : x < 1
    · simp only [if_pos hx1]
      -- the curved part never lies below the line
      by_cases h1 : x < 2 * a - 1
      · rw [if_pos h1, if_pos (by linarith)]
        exact div_le_div_of_nonneg_left hx0 (by linarith) hab
      · rw [if_neg h1]
        have da : 0 < 1 - (2 * a - 1) ^ 2 := by nlinarith
        by_cases h2 : x < 2 * b - 1
        · rw [if_pos h2]
          have hb' : x / b ≤ 1 - (1 - x) / (1 + x) := by
            have : 1 - (1 - x) / (1 + x) = x / ((1 + x) / 2) := by field_simp; ring
            rw [this]
            exact div_le_div_of_nonneg_left hx0 (by linarith) (by linarith)
          refine hb'.trans ?_
          have : (1 - x) ^ 2 / (1 - (2 * a - 1) ^ 2) ≤ (1 - x) / (1 + x) := by
            rw [div_le_div_iff₀ da (by linarith)]
            have : 0 ≤ 1 - x := by linarith
            have : (2 * a - 1) ^ 2 ≤ x ^ 2 := by nlinarith
            nlinarith
          linarith
        · rw [if_neg h2]
          have db : 0 < 1 - (2 * b - 1) ^ 2 := by nlinarith
          have : (1 - x) ^ 2 / (1 - (2 * a - 1) ^ 2) ≤ (1 - x) ^ 2 / (1 - (2 * b - 1) ^ 2) :=
            div_le_div_of_nonneg_left (sq_nonneg _) db (by nlinarith)
          linarith
    · simp only [if_neg hx1, if_neg (show ¬ x < 2 * a - 1 by linarith),
        if_neg (show ¬ x < 2 * b - 1 by linarith)]
      exact le_rfl
  rcases le_total rb' (1 / 2) with h2 | h2
  · exact low rb rb' h0 h h2
  · rcases le_total rb (1 / 2) with h3 | h3
    · exact (high (1 / 2) rb' le_rfl h2 h1).trans (low rb (1 / 2) h0 h3 le_rfl)
    · exact high rb rb' h3 h h1

/-- C77: the higher the value, the more uniform the distribution: for every `m`, the best `m` candidates together
are at most as likely to be chosen as with a lower value. -/
theorem C77_more_uniform (K : List ℕ) (hK : K.Nodup) (rb rb' : ℝ) (h0 : 0 < rb) (h : rb ≤ rb') (h1 : rb' ≤ 1)
    (m : ℕ) (hm : m ≤ K.length) :
    ((K.take m).map (prob K rb')).sum ≤ ((K.take m).map (prob K rb)).sum := by
  rw [best_share hK (by linarith) h1 m hm, best_share hK h0 (by linarith) m hm]
  exact area_rb_anti h0 h h1 (by positivity)

/-- C77: near 0 only the best candidate is ever chosen. -/
theorem C77_near_zero (K : List ℕ) (hK : K.Nodup) (hne : 0 < K.length) (rb : ℝ) (h0 : 0 < rb)
    (h1 : 2 * rb * K.length ≤ 1) : prob K rb K[0] = 1 := by
  have hn : (0 : ℝ) < K.length := by exact_mod_cast hne
  have hn1 : (1 : ℝ) ≤ K.length := by exact_mod_cast hne
  have hrb : rb ≤ 1 / 2 := by nlinarith
  rw [prob_area hK h0 (by linarith) hne]
  have e0 : ((0 : ℕ) : ℝ) / K.length = 0 := by simp
  rw [e0, area_zero h0 (by linarith), area_low h0 hrb (by positivity), if_neg]
  · ring
  · rw [not_lt, le_div_iff₀ hn]; push_cast; linarith

/-- C77: near 1 the worst candidate is nearly as likely to be chosen as the best: by a relative difference of
`n (1 - rb)`, for `n` candidates. -/
theorem C77_near_one (K : List ℕ) (hK : K.Nodup) (hne : 2 ≤ K.length) (rb : ℝ) (h1 : rb ≤ 1)
    (hnear : 1 - 1 / K.length ≤ 2 * rb - 1) :
    prob K rb (K[K.length - 1]'(by omega)) = (1 - K.length * (1 - rb)) * prob K rb (K[0]'(by omega)) := by
  have hn2 : (2 : ℝ) ≤ K.length := by exact_mod_cast hne
  have hn : (0 : ℝ) < K.length := by linarith
  have hinv : (1 : ℝ) / K.length ≤ 1 / 2 := by
    rw [div_le_div_iff₀ hn (by norm_num)]; linarith
  have hrb : 1 / 2 < rb := by linarith
  rw [C77_flat_part K hK rb hrb h1 0 (by omega) (by norm_num at *; linarith),
    prob_area hK (by linarith) h1 (by omega)]
  have e1 : ((K.length - 1 + 1 : ℕ) : ℝ) / K.length = 1 := by
    rw [Nat.sub_add_cancel (by omega), div_self hn.ne']
  have e2 : ((K.length - 1 : ℕ) : ℝ) / K.length = 1 - 1 / K.length := by
    rw [Nat.cast_sub (by omega), sub_div, div_self hn.ne']; simp
  rw [e1, e2, area_one (by linarith) h1 le_rfl, area_flat hrb h1 hnear]
  field_simp
  ring

/-- C77, for `sample` itself: one index is drawn from the candidates that are not excluded, with the
probabilities given by their order. -/
theorem C77_sample (KS ex pos : List ℕ) (rb : ℝ) (h0 : 0 < rb) (h1 : rb ≤ 1) (k : ℕ) (ds : List Draw) :
    (volume : Measure (ℝ × ℝ)).real {p | p.1 ∈ Ico (0 : ℝ) 1 ∧ p.2 ∈ Ico (0 : ℝ) 1 ∧
      sample KS 1 ex (.num rb) pos (⟨p.1, p.2⟩ :: ds) = .value [k]} = prob (candidates KS ex) rb k := by
  unfold prob
  congr 1
  ext ⟨s, u⟩
  simp only [mem_ofPred_eq]
  refine and_congr_right fun hs => and_congr_right fun hu => ?_
  by_cases hK : candidates KS ex = []
  · simp [sample, hK, loop, call, item, not_lt.2 h1]
  · obtain ⟨k', _, hk'⟩ := C12_returns_candidate _ hK rb h0.le h1 ⟨s, u⟩ ⟨hs.1, hs.2, hu.1, hu.2⟩
    simp only [sample, if_neg (not_lt.2 h1)]
    rw [loop]
    simp only [hk']
    cases ds <;> simp [loop]

/-! ## Examples -/

/-- Three candidates and bias 0.5: the probabilities are 5/9, 1/3 and 1/9. -/
example : prob [7, 4, 9] (1 / 2) 7 = 5 / 9 ∧ prob [7, 4, 9] (1 / 2) 4 = 1 / 3 ∧
    prob [7, 4, 9] (1 / 2) 9 = 1 / 9 := by
  have hK : [7, 4, 9].Nodup := by decide
  have e := fun j (hj : j < [7, 4, 9].length) =>
    prob_area hK (rb := 1 / 2) (by norm_num) (by norm_num) (j := j) hj
  have a := e 0 (by decide)
  have b := e 1 (by decide)
  have c := e 2 (by decide)
  rw [area_low (by norm_num) le_rfl (by positivity), area_low (by norm_num) le_rfl (by positivity)] at a b c
  norm_num at a b c
  exact ⟨a, b, c⟩

/-- The bias 0.9 is near 1 for three candidates. -/
example : (1 : ℝ) - 1 / ([7, 4, 9].length : ℝ) ≤ 2 * (9 / 10) - 1 := by norm_num

/-- The bias 0.1 is near 0 for three candidates. -/
example : 2 * (1 / 10) * ([7, 4, 9].length : ℝ) ≤ 1 := by norm_num

example := C77_probability [7, 4, 9] (by decide) (1 / 2) (by norm_num) (by norm_num) 1 (by decide)

example := C77_total [7, 4, 9] (by decide) (by decide) (1 / 2) (by norm_num) (by norm_num)

example := C77_better_more_likely [7, 4, 9] (by decide) (1 / 2) (by norm_num) (by norm_num) 0 2 (by decide) (by decide)

example := C77_flat_part [7, 4, 9] (by decide) (9 / 10) (by norm_num) (by norm_num) 1 (by decide) (by norm_num)

example := C77_one_uniform [7, 4, 9] (by decide) 1 (by decide)

theorem demo_prob : prob [7, 4, 9] (1 / 2) 7 = 5 / 9 := by
  have a := prob_area (K := [7, 4, 9]) (by decide) (rb := 1 / 2) (by norm_num) (by norm_num) (j := 0) (by decide)
  rw [area_low (by norm_num) le_rfl (by positivity), area_low (by norm_num) le_rfl (by positivity)] at a
  norm_num at a
  exact a

example := C77_drops_at_once [7, 4, 9] (by decide) (1 / 2) (by norm_num) (by norm_num) 0 (by decide) (by
  rw [List.getElem_cons_zero, demo_prob]; norm_num)

example := C77_more_uniform [7, 4, 9] (by decide) (1 / 2) (3 / 4) (by norm_num) (by norm_num) (by norm_num) 2 (by decide)

example := C77_near_zero [7, 4, 9] (by decide) (by decide) (1 / 10) (by norm_num) (by norm_num)

example := C77_near_one [7, 4, 9] (by decide) (by decide) (9 / 10) (by norm_num) (by norm_num)

end Sampler
end Ade
