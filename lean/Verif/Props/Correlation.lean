import Verif.Model.Correlation
import Verif.Props.LineFit
import Mathlib.Analysis.Real.Sqrt

/-!
# C126: correlation coefficients
-/

set_option autoImplicit false

namespace Ade
namespace Correlation

open scoped List

variable {α : Type}

theorem sum_lin (f g : α → ℚ) (a b c : ℚ) (rs : List α) : (rs.map fun r => a * f r + b * g r + c).sum =
    a * (rs.map f).sum + b * (rs.map g).sum + c * rs.length := by
  induction rs with
  | nil => simp
  | cons r rs ih => simp only [List.map_cons, List.sum_cons, ih, List.length_cons]; push_cast; ring

theorem sum_quad (f g : α → ℚ) (a b c a' b' c' : ℚ) (rs : List α) :
    (rs.map fun r => (a * f r + b * g r + c) * (a' * f r + b' * g r + c')).sum =
      a * a' * (rs.map fun r => f r * f r).sum + (a * b' + a' * b) * (rs.map fun r => f r * g r).sum +
        b * b' * (rs.map fun r => g r * g r).sum + (a * c' + a' * c) * (rs.map f).sum + (b * c' + b' * c) * (rs.map g).sum +
        c * c' * rs.length := by
  induction rs with
  | nil => simp
  | cons r rs ih => simp only [List.map_cons, List.sum_cons, ih, List.length_cons]; push_cast; ring

theorem cov_lin (f g : α → ℚ) (a b c a' b' c' : ℚ) (rs : List α) :
    cov (fun r => a * f r + b * g r + c) (fun r => a' * f r + b' * g r + c') rs =
      a * a' * cov f f rs + (a * b' + a' * b) * cov f g rs + b * b' * cov g g rs := by
  unfold cov
  rw [sum_quad, sum_lin, sum_lin]
  ring

theorem cov_congr (f f' g g' : α → ℚ) (rs : List α) (hf : ∀ r ∈ rs, f r = f' r) (hg : ∀ r ∈ rs, g r = g' r) :
    cov f g rs = cov f' g' rs := by
  unfold cov
  rw [List.map_congr_left hf, List.map_congr_left hg, List.map_congr_left fun r hr => by rw [hf r hr, hg r hr]]

theorem cov_comm (f g : α → ℚ) (rs : List α) : cov f g rs = cov g f rs := by
  unfold cov
  rw [List.map_congr_left fun r _ => mul_comm (f r) (g r)]
  ring

/-- The points of the records, all with weight one. -/
theorem cov_det (f : α → ℚ) (rs : List α) : cov f f rs = LineFit.det (rs.map fun r => ⟨1, f r, 0⟩) := by
  unfold cov LineFit.det LineFit.total
  simp only [List.map_map]
  have e1 : (rs.map ((fun p : LineFit.Pt => p.w) ∘ fun r => ⟨1, f r, 0⟩)).sum = rs.length := by
    induction rs with
    | nil => simp
    | cons r rs ih => simp only [List.map_cons, List.sum_cons, ih, List.length_cons, Function.comp_apply]; push_cast; ring
  rw [e1]
  have e2 : (rs.map ((fun p : LineFit.Pt => p.w * p.x ^ 2) ∘ fun r => ⟨1, f r, 0⟩)) = rs.map fun r => f r * f r :=
    List.map_congr_left fun r _ => by simp [sq]
  have e3 : (rs.map ((fun p : LineFit.Pt => p.w * p.x) ∘ fun r => ⟨1, f r, 0⟩)) = rs.map f :=
    List.map_congr_left fun r _ => by simp
  rw [e2, e3]
  ring

theorem cov_nonneg (f : α → ℚ) (rs : List α) : 0 ≤ cov f f rs := by
  rw [cov_det]
  refine LineFit.det_nonneg _ fun p hp => ?_
  obtain ⟨r, _, rfl⟩ := List.mem_map.1 hp
  exact one_pos

theorem cov_zero_iff (f : α → ℚ) (rs : List α) : cov f f rs = 0 ↔ ∀ r ∈ rs, ∀ r' ∈ rs, f r = f r' := by
  rw [cov_det, LineFit.det_zero_iff]
  · constructor
    · intro h r hr r' hr'
      exact h _ (List.mem_map_of_mem hr) _ (List.mem_map_of_mem hr')
    · intro h p hp q hq
      obtain ⟨r, hr, rfl⟩ := List.mem_map.1 hp
      obtain ⟨r', hr', rfl⟩ := List.mem_map.1 hq
      exact h r hr r' hr'
  · intro p hp
    obtain ⟨r, _, rfl⟩ := List.mem_map.1 hp
    exact one_pos

/-- The values of a parameter are not all the same. -/
def Varies (f : α → ℚ) (rs : List α) : Prop := ∃ r ∈ rs, ∃ r' ∈ rs, f r ≠ f r'

theorem varies_iff (f : α → ℚ) (rs : List α) : Varies f rs ↔ cov f f rs ≠ 0 := by
  rw [Ne, cov_zero_iff]
  unfold Varies
  push Not
  rfl

theorem varies_pos (f : α → ℚ) (rs : List α) (h : Varies f rs) : 0 < cov f f rs :=
  lt_of_le_of_ne (cov_nonneg f rs) (Ne.symm ((varies_iff f rs).1 h))

/-- C126: there is a coefficient exactly if neither parameter has the same value everywhere. -/
theorem C126_defined (f g : α → ℚ) (rs : List α) : (corr f g rs).isSome ↔ Varies f rs ∧ Varies g rs := by
  rw [varies_iff, varies_iff]
  unfold corr
  split_ifs with h
  · rcases h with h | h <;> simp [h]
  · push Not at h
    simp [h]

theorem corr_eq (f g : α → ℚ) (rs : List α) (v : ℚ) (h : corr f g rs = some v) :
    0 < cov f f rs ∧ 0 < cov g g rs ∧ v = cov f g rs * |cov f g rs| / (cov f f rs * cov g g rs) := by
  have hd := (C126_defined f g rs).1 (by rw [h]; rfl)
  refine ⟨varies_pos f rs hd.1, varies_pos g rs hd.2, ?_⟩
  unfold corr at h
  split_ifs at h
  injection h with h
  exact h.symm

theorem cov_sq_le (f g : α → ℚ) (rs : List α) (hg : 0 < cov g g rs) : cov f g rs ^ 2 ≤ cov f f rs * cov g g rs := by
  have h := cov_nonneg (fun r => cov g g rs * f r + (-cov f g rs) * g r + 0) rs
  rw [cov_lin] at h
  have e : 0 ≤ cov g g rs * (cov f f rs * cov g g rs - cov f g rs ^ 2) := by
    refine le_of_le_of_eq h ?_
    ring
  have := nonneg_of_mul_nonneg_right e hg
  linarith

/-- The average of the values of a parameter. -/
def mean (f : α → ℚ) (rs : List α) : ℚ := (rs.map f).sum / rs.length

/-- Specification: Pearson's correlation coefficient. -/
noncomputable def pearson (f g : α → ℚ) (rs : List α) : ℝ :=
  ((rs.map fun r => (f r - mean f rs) * (g r - mean g rs)).sum : ℚ) /
    (√(((rs.map fun r => (f r - mean f rs) ^ 2).sum : ℚ) : ℝ) * √(((rs.map fun r => (g r - mean g rs) ^ 2).sum : ℚ) : ℝ))

theorem cov_mean (f g : α → ℚ) (rs : List α) (hn : rs ≠ []) :
    cov f g rs = rs.length * (rs.map fun r => (f r - mean f rs) * (g r - mean g rs)).sum := by
  have hl : (rs.length : ℚ) ≠ 0 := by
    rw [Ne, Nat.cast_eq_zero, List.length_eq_zero_iff]
    exact hn
  have h := sum_quad f g 1 0 (-mean f rs) 0 1 (-mean g rs) rs
  simp only [one_mul, zero_mul, add_zero, zero_add, mul_zero, mul_one, ← sub_eq_add_neg] at h
  rw [h]
  unfold cov mean
  field_simp
  ring

/-- C126: what is computed determines Pearson's coefficient `r`: it is `r * |r|`. -/
theorem C126_coefficient (f g : α → ℚ) (rs : List α) (v : ℚ) (h : corr f g rs = some v) :
    (v : ℝ) = pearson f g rs * |pearson f g rs| := by
  obtain ⟨hf, hg, hv⟩ := corr_eq f g rs v h
  have hn : rs ≠ [] := by
    rintro rfl
    simp [cov] at hf
  have hl : (0 : ℚ) < rs.length := by
    rw [Nat.cast_pos]
    exact List.length_pos_iff.2 hn
  rw [cov_mean f f rs hn] at hf hv
  rw [cov_mean g g rs hn] at hg hv
  rw [cov_mean f g rs hn] at hv
  have s1 : (rs.map fun r => (f r - mean f rs) * (f r - mean f rs)) = rs.map fun r => (f r - mean f rs) ^ 2 :=
    List.map_congr_left fun r _ => (sq _).symm
  have s2 : (rs.map fun r => (g r - mean g rs) * (g r - mean g rs)) = rs.map fun r => (g r - mean g rs) ^ 2 :=
    List.map_congr_left fun r _ => (sq _).symm
  rw [s1] at hf hv
  rw [s2] at hg hv
  unfold pearson
  generalize (rs.map fun r => (f r - mean f rs) ^ 2).sum = a at hf hv
  generalize (rs.map fun r => (g r - mean g rs) ^ 2).sum = b at hg hv
  generalize (rs.map fun r => (f r - mean f rs) * (g r - mean g rs)).sum = c at hv
  have ha : (0 : ℚ) < a := (mul_pos_iff_of_pos_left hl).1 hf
  have hb : (0 : ℚ) < b := (mul_pos_iff_of_pos_left hl).1 hg
  have haR : (0 : ℝ) < (a : ℝ) := by exact_mod_cast ha
  have hbR : (0 : ℝ) < (b : ℝ) := by exact_mod_cast hb
  have e1 : v = c * |c| / (a * b) := by
    rw [hv, abs_mul, abs_of_pos hl]
    field_simp
  rw [e1, abs_div, abs_of_pos (mul_pos (Real.sqrt_pos.2 haR) (Real.sqrt_pos.2 hbR)), div_mul_div_comm]
  have e2 : √(a : ℝ) * √(b : ℝ) * (√(a : ℝ) * √(b : ℝ)) = a * b := by
    rw [mul_mul_mul_comm, Real.mul_self_sqrt haR.le, Real.mul_self_sqrt hbR.le]
  rw [e2]
  push_cast
  rfl

/-- C126: the coefficient is between minus one and one. -/
theorem C126_range (f g : α → ℚ) (rs : List α) (v : ℚ) (h : corr f g rs = some v) : -1 ≤ v ∧ v ≤ 1 := by
  obtain ⟨hf, hg, rfl⟩ := corr_eq f g rs v h
  have hs := cov_sq_le f g rs hg
  have hp := mul_pos hf hg
  rw [← abs_le, abs_div, abs_mul, abs_abs, abs_mul_abs_self, abs_of_pos hp, div_le_one hp]
  linarith [sq (cov f g rs)]

theorem corr_line (f g : α → ℚ) (rs : List α) (v : ℚ) (h : corr f g rs = some v) :
    v * v = 1 → ∃ b, ∀ r ∈ rs, g r = cov g g rs / cov f g rs * f r + b := by
  obtain ⟨hf, hg, rfl⟩ := corr_eq f g rs v h
  intro hv
  have hp := mul_pos hf hg
  have hfg : cov f g rs ≠ 0 := by
    intro e
    rw [e] at hv
    simp at hv
  have h1 : cov f g rs ^ 2 = cov f f rs * cov g g rs := by
    have h2 : (cov f g rs ^ 2) ^ 2 = (cov f f rs * cov g g rs) ^ 2 := by
      rw [div_mul_div_comm, div_eq_one_iff_eq (mul_pos hp hp).ne'] at hv
      have := abs_mul_abs_self (cov f g rs)
      calc (cov f g rs ^ 2) ^ 2 = cov f g rs * cov f g rs * (cov f g rs * cov f g rs) := by ring
        _ = cov f g rs * |cov f g rs| * (cov f g rs * |cov f g rs|) := by linear_combination (-(cov f g rs) ^ 2) * this
        _ = _ := by rw [hv]; ring
    exact (pow_left_inj₀ (sq_nonneg _) hp.le two_ne_zero).1 h2
  have hz : cov (fun r => cov g g rs * f r + (-cov f g rs) * g r + 0) (fun r => cov g g rs * f r + (-cov f g rs) * g r + 0) rs = 0 := by
    rw [cov_lin]
    linear_combination (-cov g g rs) * h1
  rw [cov_zero_iff] at hz
  cases rs with
  | nil => exact ⟨0, by simp⟩
  | cons r0 rs =>
    refine ⟨g r0 - cov g g (r0 :: rs) / cov f g (r0 :: rs) * f r0, fun r hr => ?_⟩
    have := hz r hr r0 List.mem_cons_self
    field_simp
    linarith

theorem corr_of_line (f g : α → ℚ) (rs : List α) (hf : Varies f rs) (m b : ℚ) (hm : m ≠ 0) (hl : ∀ r ∈ rs, g r = m * f r + b) :
    corr f g rs = some (m * |m| / m ^ 2) := by
  have hp := varies_pos f rs hf
  have e1 : cov f g rs = m * cov f f rs := by
    have h := cov_lin f g 1 0 0 m 0 b rs
    simp only [one_mul, zero_mul, add_zero, mul_zero] at h
    rw [cov_congr f f g (fun r => m * f r + b) rs (fun _ _ => rfl) hl, h]
  have e2 : cov g g rs = m ^ 2 * cov f f rs := by
    have h := cov_lin f g m 0 b m 0 b rs
    simp only [zero_mul, add_zero, mul_zero] at h
    rw [cov_congr g (fun r => m * f r + b) g (fun r => m * f r + b) rs hl hl, h]
    ring
  unfold corr
  have hm2 : (0 : ℚ) < m ^ 2 := by positivity
  rw [if_neg (by rw [e2]; push Not; exact ⟨hp.ne', (mul_pos hm2 hp).ne'⟩), e1, e2, abs_mul, abs_of_pos hp]
  congr 1
  field_simp

/-- C126: it is one exactly if the values lie on a rising line, and minus one exactly if they lie on a falling one. -/
theorem C126_line (f g : α → ℚ) (rs : List α) (hf : Varies f rs) :
    (corr f g rs = some 1 ↔ ∃ m b, 0 < m ∧ ∀ r ∈ rs, g r = m * f r + b) ∧
      (corr f g rs = some (-1) ↔ ∃ m b, m < 0 ∧ ∀ r ∈ rs, g r = m * f r + b) := by
  have sgn : ∀ v, corr f g rs = some v → (0 < v → 0 < cov f g rs) ∧ (v < 0 → cov f g rs < 0) := by
    intro v h
    obtain ⟨hff, hgg, rfl⟩ := corr_eq f g rs v h
    have hp := mul_pos hff hgg
    constructor
    · intro hv
      by_contra hc
      rw [not_lt] at hc
      have : cov f g rs * |cov f g rs| / (cov f f rs * cov g g rs) ≤ 0 :=
        div_nonpos_of_nonpos_of_nonneg (mul_nonpos_of_nonpos_of_nonneg hc (abs_nonneg _)) hp.le
      linarith
    · intro hv
      by_contra hc
      rw [not_lt] at hc
      have : 0 ≤ cov f g rs * |cov f g rs| / (cov f f rs * cov g g rs) :=
        div_nonneg (mul_nonneg hc (abs_nonneg _)) hp.le
      linarith
  refine ⟨⟨fun h => ?_, ?_⟩, ⟨fun h => ?_, ?_⟩⟩
  · obtain ⟨b, hb⟩ := corr_line f g rs 1 h (by norm_num)
    exact ⟨_, b, div_pos (corr_eq f g rs 1 h).2.1 ((sgn 1 h).1 one_pos), hb⟩
  · rintro ⟨m, b, hm, hl⟩
    rw [corr_of_line f g rs hf m b hm.ne' hl, abs_of_pos hm]
    congr 1
    field_simp
  · obtain ⟨b, hb⟩ := corr_line f g rs (-1) h (by norm_num)
    exact ⟨_, b, div_neg_of_pos_of_neg (corr_eq f g rs (-1) h).2.1 ((sgn (-1) h).2 (by norm_num)), hb⟩
  · rintro ⟨m, b, hm, hl⟩
    rw [corr_of_line f g rs hf m b hm.ne hl, abs_of_neg hm]
    congr 1
    rw [div_eq_iff (pow_ne_zero _ hm.ne)]
    ring

/-- C126: the order of the two parameters does not matter. -/
theorem C126_symmetric (f g : α → ℚ) (rs : List α) : corr f g rs = corr g f rs := by
  unfold corr
  rw [cov_comm g f rs, mul_comm (cov f f rs)]
  exact if_congr or_comm rfl rfl

/-- C126: nor do the units of the parameters (a positive factor and another zero), and with a negative factor the sign
changes. -/
theorem C126_units (f g : α → ℚ) (rs : List α) (p q s t : ℚ) (hp : p ≠ 0) (hs : s ≠ 0) :
    corr (fun r => p * f r + q) (fun r => s * g r + t) rs =
      (corr f g rs).map fun v => if 0 < p * s then v else -v := by
  have e1 : cov (fun r => p * f r + q) (fun r => s * g r + t) rs = p * s * cov f g rs := by
    have h := cov_lin f g p 0 q 0 s t rs
    simp only [zero_mul, add_zero, mul_zero, zero_add] at h
    exact h
  have e2 : cov (fun r => p * f r + q) (fun r => p * f r + q) rs = p ^ 2 * cov f f rs := by
    have h := cov_lin f f p 0 q p 0 q rs
    simp only [zero_mul, add_zero, mul_zero] at h
    rw [h]
    ring
  have e3 : cov (fun r => s * g r + t) (fun r => s * g r + t) rs = s ^ 2 * cov g g rs := by
    have h := cov_lin g g s 0 t s 0 t rs
    simp only [zero_mul, add_zero, mul_zero] at h
    rw [h]
    ring
  unfold corr
  rw [e1, e2, e3]
  have hp2 : p ^ 2 ≠ 0 := pow_ne_zero _ hp
  have hs2 : s ^ 2 ≠ 0 := pow_ne_zero _ hs
  by_cases h : cov f f rs = 0 ∨ cov g g rs = 0
  · rw [if_pos h, if_pos (h.imp (fun h => by rw [h, mul_zero]) fun h => by rw [h, mul_zero])]
    rfl
  · rw [if_neg h, if_neg (by simpa [hp2, hs2] using h)]
    push Not at h
    simp only [Option.map_some, Option.some.injEq]
    obtain ⟨h1, h2⟩ := h
    rw [abs_mul]
    rcases lt_or_gt_of_ne (mul_ne_zero hp hs) with h0 | h0
    · rw [if_neg (not_lt.2 h0.le), abs_of_neg h0]
      field_simp
    · rw [if_pos h0, abs_of_pos h0]
      field_simp

/-! ## The order of the pairs -/

theorem insertIdx_take {β : Type} (x : β) : ∀ (l : List β) (i : ℕ), i ≤ l.length → l.insertIdx i x = l.take i ++ x :: l.drop i
  | l, 0, _ => by simp
  | [], i + 1, h => by simp at h
  | y :: l, i + 1, h => by
    rw [List.insertIdx_succ_cons, insertIdx_take x l i (by simpa using h)]
    rfl

variable {β : Type}

theorem runUp_append (x : β × Option ℚ) (l : List (β × Option ℚ)) : (runUp x l).1 ++ (runUp x l).2 = l := by
  induction l generalizing x with
  | nil => rfl
  | cons y ys ih =>
    unfold runUp
    split_ifs
    · rfl
    · simp [ih y]

theorem runDown_append (x : β × Option ℚ) (l : List (β × Option ℚ)) : (runDown x l).1 ++ (runDown x l).2 = l := by
  induction l generalizing x with
  | nil => rfl
  | cons y ys ih =>
    unfold runDown
    split_ifs
    · simp [ih y]
    · rfl

theorem firstRun_perm : ∀ l : List (β × Option ℚ), (firstRun l).1 ++ (firstRun l).2 ~ l
  | [] => List.Perm.refl _
  | [x] => List.Perm.refl _
  | x :: y :: ys => by
    unfold firstRun
    dsimp only
    split_ifs
    · refine ((List.reverse_perm _).append_right _).trans ?_
      rw [List.cons_append, runDown_append]
    · rw [List.cons_append, runUp_append]

theorem place_le (x : β × Option ℚ) (a : List (β × Option ℚ)) (fuel l r : ℕ) (h : l ≤ r) : place x a fuel l r ≤ r := by
  induction fuel generalizing l r with
  | zero => exact h
  | succ fuel ih =>
    unfold place
    dsimp only
    split_ifs with hlr
    · split
      · exact h
      · split_ifs
        · exact (ih l _ (by omega)).trans (by omega)
        · exact ih _ r (by omega)
    · exact h

theorem insertAll_perm (a l : List (β × Option ℚ)) : insertAll a l ~ a ++ l := by
  induction l generalizing a with
  | nil => simp [insertAll]
  | cons x xs ih =>
    unfold insertAll
    refine (ih _).trans (((List.perm_insertIdx x a (place_le x a _ _ _ (Nat.zero_le _))).append_right xs).trans ?_)
    exact List.perm_middle.symm

/-- C126: every pair is there once, with or without a coefficient. -/
theorem C126_each_pair (l : List (β × Option ℚ)) : sort l ~ l := by
  unfold sort
  exact (List.reverse_perm _).trans ((insertAll_perm _ _).trans ((firstRun_perm _).trans (List.reverse_perm _)))

/-- The relation between an item and a later one while sorting. -/
def Le (x y : β × Option ℚ) : Prop := ∃ a b, x.2 = some a ∧ y.2 = some b ∧ |a| ≤ |b|

theorem Le.trans {x y z : β × Option ℚ} (h : Le x y) (h' : Le y z) : Le x z := by
  obtain ⟨a, b, ha, hb, hab⟩ := h
  obtain ⟨b', c, hb', hc, hbc⟩ := h'
  rw [hb] at hb'
  injection hb' with e
  subst e
  exact ⟨a, c, ha, hc, hab.trans hbc⟩

theorem Le.of_lt {x y : β × Option ℚ} (h : lt (key x) (key y) = true) : Le x y := by
  unfold lt key at h
  cases hx : x.2 with
  | none => rw [hx] at h; simp at h
  | some a => cases hy : y.2 with
    | none => rw [hx, hy] at h; simp at h
    | some b =>
      rw [hx, hy] at h
      exact ⟨a, b, hx, hy, (by simpa using h : |a| < |b|).le⟩

theorem Le.of_not_lt {x y : β × Option ℚ} (hx : x.2.isSome) (hy : y.2.isSome) (h : ¬ lt (key y) (key x) = true) : Le x y := by
  obtain ⟨a, ha⟩ := Option.isSome_iff_exists.1 hx
  obtain ⟨b, hb⟩ := Option.isSome_iff_exists.1 hy
  refine ⟨a, b, ha, hb, ?_⟩
  unfold lt key at h
  rw [ha, hb] at h
  simpa using h

theorem runUp_sorted (x : β × Option ℚ) (l : List (β × Option ℚ)) (hx : x.2.isSome) (hl : ∀ y ∈ l, y.2.isSome) :
    (x :: (runUp x l).1).Pairwise Le := by
  induction l generalizing x with
  | nil => exact List.pairwise_singleton _ _
  | cons y ys ih =>
    unfold runUp
    split_ifs with h
    · exact List.pairwise_singleton _ _
    · have hy := hl y List.mem_cons_self
      have := ih y hy fun z hz => hl z (List.mem_cons_of_mem _ hz)
      have hxy := Le.of_not_lt hx hy h
      refine List.pairwise_cons.2 ⟨fun z hz => ?_, this⟩
      rcases List.mem_cons.1 hz with rfl | hz
      · exact hxy
      · exact hxy.trans (List.rel_of_pairwise_cons this hz)

theorem runDown_sorted (x : β × Option ℚ) (l : List (β × Option ℚ)) :
    (x :: (runDown x l).1).Pairwise fun a b => Le b a := by
  induction l generalizing x with
  | nil => exact List.pairwise_singleton _ _
  | cons y ys ih =>
    unfold runDown
    split_ifs with h
    · have hxy := Le.of_lt h
      refine List.pairwise_cons.2 ⟨fun z hz => ?_, ih y⟩
      rcases List.mem_cons.1 hz with rfl | hz
      · exact hxy
      · exact (List.rel_of_pairwise_cons (ih y) hz).trans hxy
    · exact List.pairwise_singleton _ _

theorem firstRun_sorted : ∀ l : List (β × Option ℚ), (∀ y ∈ l, y.2.isSome) → (firstRun l).1.Pairwise Le
  | [], _ => List.Pairwise.nil
  | [x], _ => List.pairwise_singleton _ _
  | x :: y :: ys, hl => by
    unfold firstRun
    dsimp only
    split_ifs
    · rw [List.pairwise_reverse]
      exact runDown_sorted x _
    · exact runUp_sorted x _ (hl x List.mem_cons_self) fun z hz => hl z (List.mem_cons_of_mem _ hz)

theorem place_spec (x : β × Option ℚ) (a : List (β × Option ℚ)) (hx : x.2.isSome) (ha : ∀ y ∈ a, y.2.isSome)
    (hs : a.Pairwise Le) (fuel l r : ℕ) (hf : r - l ≤ fuel) (hlr : l ≤ r) (hr : r ≤ a.length)
    (h1 : ∀ i (h : i < a.length), i < l → Le a[i] x) (h2 : ∀ i (h : i < a.length), r ≤ i → Le x a[i]) :
    (∀ i (h : i < a.length), i < place x a fuel l r → Le a[i] x) ∧
      ∀ i (h : i < a.length), place x a fuel l r ≤ i → Le x a[i] := by
  induction fuel generalizing l r with
  | zero =>
    have : l = r := by omega
    subst this
    exact ⟨h1, h2⟩
  | succ fuel ih =>
    unfold place
    dsimp only
    split_ifs with h
    · have hp : (l + r) / 2 < a.length := by omega
      rw [List.getElem?_eq_getElem hp]
      dsimp only
      split_ifs with hlt
      · refine ih l _ (by omega) (by omega) (by omega) h1 fun i hi hpi => ?_
        rcases Nat.eq_or_lt_of_le hpi with e | e
        · subst e
          exact Le.of_lt hlt
        · exact (Le.of_lt hlt).trans (List.pairwise_iff_getElem.1 hs _ _ hp hi e)
      · refine ih _ r (by omega) (by omega) hr (fun i hi hpi => ?_) h2
        have hle := Le.of_not_lt (ha _ (List.getElem_mem hp)) hx hlt
        rcases Nat.eq_or_lt_of_le (Nat.le_of_lt_succ hpi) with e | e
        · subst e
          exact hle
        · exact (List.pairwise_iff_getElem.1 hs _ _ hi hp e).trans hle
    · have : l = r := by omega
      subst this
      exact ⟨h1, h2⟩

theorem insertAll_sorted (a l : List (β × Option ℚ)) (ha : ∀ y ∈ a, y.2.isSome) (hl : ∀ y ∈ l, y.2.isSome)
    (hs : a.Pairwise Le) : (insertAll a l).Pairwise Le := by
  induction l generalizing a with
  | nil => exact hs
  | cons x xs ih =>
    unfold insertAll
    have hx := hl x List.mem_cons_self
    have hp := place_le x a a.length 0 a.length (Nat.zero_le _)
    obtain ⟨h1, h2⟩ := place_spec x a hx ha hs a.length 0 a.length (by omega) (Nat.zero_le _) le_rfl
      (fun i _ h => by omega) (fun i hi h => by omega)
    refine ih _ (fun y hy => ?_) (fun y hy => hl y (List.mem_cons_of_mem _ hy)) ?_
    · rcases List.mem_cons.1 ((List.perm_insertIdx x a hp).subset hy) with rfl | hy
      · exact hx
      · exact ha y hy
    · rw [insertIdx_take x a _ hp]
      have hs' := hs
      rw [← List.take_append_drop (place x a a.length 0 a.length) a, List.pairwise_append] at hs'
      refine List.pairwise_append.2 ⟨hs'.1, List.pairwise_cons.2 ⟨fun z hz => ?_, hs'.2.1⟩, fun y hy z hz => ?_⟩
      · obtain ⟨i, hi, rfl⟩ := List.mem_iff_getElem.1 hz
        rw [List.getElem_drop]
        exact h2 _ _ (Nat.le_add_right _ _)
      · rcases List.mem_cons.1 hz with rfl | hz
        · obtain ⟨i, hi, rfl⟩ := List.mem_iff_getElem.1 hy
          rw [List.getElem_take]
          exact h1 _ _ (by rw [List.length_take] at hi; omega)
        · exact hs'.2.2 y hy z hz

/-- C126: if all pairs have a coefficient, they come in the order of its size, the largest first. -/
theorem C126_order_partial (l : List (β × Option ℚ)) (hl : ∀ p ∈ l, p.2.isSome) :
    (sort l).Pairwise fun p q => ∃ a b, p.2 = some a ∧ q.2 = some b ∧ |b| ≤ |a| := by
  unfold sort
  rw [List.pairwise_reverse]
  have hp := firstRun_perm l.reverse
  have hm : ∀ y ∈ (firstRun l.reverse).1 ++ (firstRun l.reverse).2, y.2.isSome := fun y hy =>
    hl y (List.mem_reverse.1 (hp.subset hy))
  refine (insertAll_sorted _ _ (fun y hy => hm y (List.mem_append_left _ hy)) (fun y hy => hm y (List.mem_append_right _ hy))
    (firstRun_sorted _ fun y hy => hl y (List.mem_reverse.1 hy))).imp ?_
  rintro x y ⟨a, b, ha, hb, h⟩
  exact ⟨b, a, hb, ha, h⟩

theorem mem_pairs (np : ℕ) (R : ℕ → ℕ → Option ℚ) (p : (ℕ × ℕ) × Option ℚ) :
    p ∈ pairs np R ↔ 1 ≤ p.1.1 ∧ p.1.1 < p.1.2 ∧ p.1.2 ≤ np ∧ p.2 = R p.1.1 p.1.2 := by
  obtain ⟨⟨i, j⟩, r⟩ := p
  simp only [pairs, List.mem_flatMap, List.mem_map, List.mem_filter, List.mem_range'_1, Prod.mk.injEq, decide_eq_true_eq]
  constructor
  · rintro ⟨k1, h1, k2, ⟨h2, h3⟩, ⟨rfl, rfl⟩, rfl⟩
    exact ⟨h1.1, h3, by omega, rfl⟩
  · rintro ⟨h1, h2, h3, rfl⟩
    exact ⟨i, ⟨h1, by omega⟩, j, ⟨⟨by omega, by omega⟩, h2⟩, ⟨rfl, rfl⟩, rfl⟩

theorem pairs_nodup (np : ℕ) (R : ℕ → ℕ → Option ℚ) : ((pairs np R).map Prod.fst).Nodup := by
  unfold pairs
  rw [List.map_flatMap, List.nodup_flatMap]
  constructor
  · intro k1 _
    rw [List.map_map]
    refine List.Nodup.map ?_ ((List.nodup_range' (step := 1)).filter _)
    intro a b hab
    simpa using hab
  · refine (List.nodup_range' (step := 1)).imp ?_
    intro a b hab
    simp only [Function.onFun, List.disjoint_left, List.mem_map]
    rintro x ⟨y, ⟨k, _, rfl⟩, rfl⟩ ⟨z, ⟨k', _, rfl⟩, h⟩
    simp only [Prod.mk.injEq] at h
    exact hab h.1.symm

/-- C126, where all parameters vary: the pairs shown are pairs of different parameters, each once, with their coefficients;
there are as many as asked for, if there are; and no pair that is not shown has a stronger correlation than one that is. -/
theorem C126_strongest_partial (np : ℕ) (col : ℕ → α → ℚ) (rs : List α) (N : ℕ)
    (hv : ∀ k, 1 ≤ k → k ≤ np → Varies (col k) rs) :
    (∀ p ∈ shown np col rs N, 1 ≤ p.1.1 ∧ p.1.1 < p.1.2 ∧ p.1.2 ≤ np ∧ p.2 = corr (col p.1.1) (col p.1.2) rs) ∧
    ((shown np col rs N).map Prod.fst).Nodup ∧ (shown np col rs N).length ≤ N ∧
    (∀ p ∈ shown np col rs N, ∀ k1 k2, 1 ≤ k1 → k1 < k2 → k2 ≤ np → (k1, k2) ∉ (shown np col rs N).map Prod.fst →
      (shown np col rs N).length = N ∧
      ∃ a b, p.2 = some a ∧ corr (col k1) (col k2) rs = some b ∧ |b| ≤ |a|) := by
  have hperm := C126_each_pair (pairs np fun k1 k2 => corr (col k1) (col k2) rs)
  have hsome : ∀ p ∈ pairs np (fun k1 k2 => corr (col k1) (col k2) rs), p.2.isSome := by
    intro p hp
    obtain ⟨h1, h2, h3, h4⟩ := (mem_pairs _ _ _).1 hp
    rw [h4, C126_defined]
    exact ⟨hv _ h1 (by omega), hv _ (by omega) h3⟩
  have hord := C126_order_partial _ hsome
  have hnd := (hperm.map Prod.fst).nodup_iff.2 (pairs_nodup np fun k1 k2 => corr (col k1) (col k2) rs)
  have hmem : ∀ p, p ∈ sort (pairs np fun k1 k2 => corr (col k1) (col k2) rs) ↔ _ := fun p =>
    hperm.mem_iff.trans (mem_pairs np _ p)
  unfold shown
  generalize sort (pairs np fun k1 k2 => corr (col k1) (col k2) rs) = l at *
  refine ⟨fun p hp => (hmem p).1 (List.mem_of_mem_take hp), ?_, List.length_take_le _ _, ?_⟩
  · rw [List.map_take]; exact hnd.sublist (List.take_sublist _ _)
  · intro p hp k1 k2 h1 h2 h3 hnot
    have hq : ((k1, k2), corr (col k1) (col k2) rs) ∈ l.drop N := by
      have := (hmem ((k1, k2), corr (col k1) (col k2) rs)).2 ⟨h1, h2, h3, rfl⟩
      rw [← List.take_append_drop N l, List.mem_append] at this
      rcases this with h | h
      · exact absurd (List.mem_map_of_mem h) hnot
      · exact h
    constructor
    · rw [List.length_take]
      have : (l.drop N).length ≠ 0 := by
        intro h
        rw [List.length_eq_zero_iff.1 h] at hq
        simp at hq
      rw [List.length_drop] at this
      omega
    · rw [← List.take_append_drop N l, List.pairwise_append] at hord
      exact hord.2.2 p hp _ hq

/-! ## Parameters that never change -/

/-- C126, negation: with four parameters of which the second has the same value in all records, the first pair shown is one
with that parameter, and has no coefficient at all, and the pair of the last two parameters is the last, whatever the
correlations of the others. -/
theorem C126_constant (col : ℕ → α → ℚ) (rs : List α) (h : ¬ Varies (col 2) rs) (h1 : Varies (col 1) rs)
    (h3 : Varies (col 3) rs) (h4 : Varies (col 4) rs) :
    shown 4 col rs 1 = [((1, 2), none)] ∧
      (shown 4 col rs 6).getLast? = some ((3, 4), corr (col 3) (col 4) rs) := by
  have none2 : ∀ k, corr (col 2) (col k) rs = none ∧ corr (col k) (col 2) rs = none := by
    intro k
    constructor <;>
    · rw [← Option.not_isSome_iff_eq_none, C126_defined]
      tauto
  obtain ⟨a, ha⟩ := Option.isSome_iff_exists.1 ((C126_defined (col 1) (col 3) rs).2 ⟨h1, h3⟩)
  obtain ⟨b, hb⟩ := Option.isSome_iff_exists.1 ((C126_defined (col 1) (col 4) rs).2 ⟨h1, h4⟩)
  obtain ⟨c, hc⟩ := Option.isSome_iff_exists.1 ((C126_defined (col 3) (col 4) rs).2 ⟨h3, h4⟩)
  have hp : pairs 4 (fun k1 k2 => corr (col k1) (col k2) rs) =
      [((1, 2), none), ((1, 3), some a), ((1, 4), some b), ((2, 3), none), ((2, 4), none), ((3, 4), some c)] := by
    have : pairs 4 (fun k1 k2 => corr (col k1) (col k2) rs) =
      [((1, 2), corr (col 1) (col 2) rs), ((1, 3), corr (col 1) (col 3) rs), ((1, 4), corr (col 1) (col 4) rs),
        ((2, 3), corr (col 2) (col 3) rs), ((2, 4), corr (col 2) (col 4) rs), ((3, 4), corr (col 3) (col 4) rs)] := rfl
    rw [this, (none2 1).2, ha, hb, (none2 3).1, (none2 4).1, hc]
  unfold shown
  rw [hp, hc]
  by_cases hab : |a| < |b|
  · simp [sort, firstRun, runUp, insertAll, place, key, lt, hab]
  · simp [sort, firstRun, runUp, insertAll, key, lt, hab]

namespace Demo

/-- Records of four parameters, the second of which is constant, the third twice the first and the fourth arbitrary. -/
def recs : List (List ℚ) := [[1, 5, 2, 3], [2, 5, 4, 1], [4, 5, 8, 2]]
def col (k : ℕ) (r : List ℚ) : ℚ := r.getD (k - 1) 0

theorem v1 : Varies (col 1) recs := ⟨_, List.mem_cons_self, _, List.mem_cons_of_mem _ List.mem_cons_self, by norm_num [col]⟩
theorem v3 : Varies (col 3) recs := ⟨_, List.mem_cons_self, _, List.mem_cons_of_mem _ List.mem_cons_self, by norm_num [col]⟩
theorem v4 : Varies (col 4) recs := ⟨_, List.mem_cons_self, _, List.mem_cons_of_mem _ List.mem_cons_self, by norm_num [col]⟩

theorem value : corr (col 1) (col 4) recs = some (-3 / 28) := by
  norm_num [corr, cov, recs, col]

example := C126_defined (col 1) (col 4) recs
example := C126_coefficient (col 1) (col 4) recs _ value
example := C126_range (col 1) (col 4) recs _ value
example := C126_line (col 1) (col 3) recs v1
example := C126_symmetric (col 1) (col 4) recs
example := C126_units (col 1) (col 4) recs 2 1 (-3) 4 (by norm_num) (by norm_num)
theorem c2 : ¬ Varies (col 2) recs := by
  rw [varies_iff]
  norm_num [cov, recs, col]

example := C126_each_pair (pairs 4 fun k1 k2 => corr (col k1) (col k2) recs)
example := C126_order_partial [((1, 2), some (1 / 2)), ((1, 3), some (-3 / 4)), ((2, 3), (some 1 : Option ℚ))] (by simp)
/-- Three parameters that all vary. -/
example := C126_strongest_partial 3 (fun k => if k = 2 then col 3 else if k = 3 then col 4 else col 1) recs 2 (by
  intro k h1 h3
  by_cases e2 : k = 2
  · subst e2; exact v3
  · by_cases e3 : k = 3
    · subst e3; exact v4
    · simpa only [e2, e3, if_false] using v1)
/-- The third parameter is twice the first, and the pair of the two is not the first. -/
example := C126_constant col recs c2 v1 v3 v4
example : corr (col 1) (col 3) recs = some 1 := by norm_num [corr, cov, recs, col]

end Demo

end Correlation
end Ade
