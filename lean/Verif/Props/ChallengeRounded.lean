import Verif.Model.ChallengeRounded
import Verif.Props.Challenge
import Verif.Props.RelationsRounded
import Mathlib.Algebra.Order.Group.MinMax

/-!
# C158: challengers in spite of rounding
-/

set_option autoImplicit false

namespace Ade
namespace ChallengeRounded

open RatioRounded (RoundsToNearest round53 round53_nearest fl_self)
open RelationsRounded (rounding_error_abs)
open Rounding (Repr)

/-! ## One parameter -/

/-- The donor's value. -/
def donor1 (fl : ℚ → ℚ) (b x y F : ℚ) : ℚ := fl (b + fl (fl (x - y) * F))

theorem donor_getElem? (fl : ℚ → ℚ) (b i0 i1 : List ℚ) (F : ℚ) (n : ℕ) (hb : b.length = n) (h0 : i0.length = n)
    (h1 : i1.length = n) (k : ℕ) (hk : k < n) :
    (donor fl b i0 i1 F)[k]? = some (donor1 fl (b.getD k 0) (i0.getD k 0) (i1.getD k 0) F) := by
  simp [donor, donor1, hb, h0, h1, hk, List.getD]

theorem donor_length (fl : ℚ → ℚ) (b i0 i1 : List ℚ) (F : ℚ) (n : ℕ) (hb : b.length = n) (h0 : i0.length = n)
    (h1 : i1.length = n) : (donor fl b i0 i1 F).length = n := by
  simp [donor, hb, h0, h1]

/-- The limited value. -/
def limited (fl : ℚ → ℚ) (lo hi v : ℚ) : ℚ := Rounding.limit1 (bound fl lo hi).rlo (bound fl lo hi).rhi lo hi v

/-- The challenger's value of parameter `k`. -/
theorem challenger_getElem? (fl : ℚ → ℚ) (bounds : List (ℚ × ℚ)) (CR : ℚ) (d : Challenge.Draws) (t b i0 i1 : List ℚ)
    (hb : b.length = bounds.length) (h0 : i0.length = bounds.length) (h1 : i1.length = bounds.length)
    (k : ℕ) (hk : k < bounds.length) :
    (challenger fl bounds CR d t b i0 i1)[k]? = some (limited fl (bounds[k]).1 (bounds[k]).2
      (if k ≠ d.j ∧ CR < d.u k then t.getD k 0 else donor1 fl (b.getD k 0) (i0.getD k 0) (i1.getD k 0) d.F)) := by
  have hl := donor_length fl b i0 i1 d.F _ hb h0 h1
  unfold challenger Rounding.limit Challenge.crossover Challenge.crossoverWith
  rw [List.getElem?_zipWith, Challenge.crossover_foldl, donor_getElem? fl b i0 i1 d.F _ hb h0 h1 k hk, hl,
    List.getElem?_map, List.getElem?_eq_getElem hk]
  simp only [hk, true_and, Option.map_some]
  by_cases h : k ≠ d.j ∧ CR < d.u k
  · simp only [if_pos h]; rfl
  · simp only [if_neg h]; rfl

theorem repr_two_mul {p : ℕ} {x : ℚ} (h : Repr p x) : Repr p (2 * x) := by
  obtain ⟨m, e, hm, rfl⟩ := h
  exact ⟨m, e + 1, hm, by rw [zpow_add_one₀ (by norm_num)]; ring⟩

/-- The exact limiting does not increase distances. -/
theorem limit1_lipschitz (b : Bound) (v w : ℚ) : |ParamManager.limit1 b v - ParamManager.limit1 b w| ≤ |v - w| := by
  unfold ParamManager.limit1
  have hA : ∀ v w : ℚ, |(if v < b.lo then 2 * b.lo - v else v) - (if w < b.lo then 2 * b.lo - w else w)| ≤ |v - w| := by
    intro v w
    split_ifs <;> rcases abs_cases (v - w) with ⟨h, h'⟩ | ⟨h, h'⟩ <;> rw [abs_le] <;> constructor <;> linarith
  have hB : ∀ v w : ℚ, |(if v > b.hi then 2 * b.hi - v else v) - (if w > b.hi then 2 * b.hi - w else w)| ≤ |v - w| := by
    intro v w
    split_ifs <;> rcases abs_cases (v - w) with ⟨h, h'⟩ | ⟨h, h'⟩ <;> rw [abs_le] <;> constructor <;> linarith
  have hC : ∀ v w : ℚ, |min (max v b.lo) b.hi - min (max w b.lo) b.hi| ≤ |v - w| := by
    intro v w
    refine (abs_min_sub_min_le_max _ _ _ _).trans ?_
    rw [sub_self, abs_zero, max_eq_left (abs_nonneg _)]
    exact abs_max_sub_max_le_abs _ _ _
  exact (hC _ _).trans ((hB _ _).trans (hA _ _))

/-- The rounding of the reflections. -/
theorem limited_error {fl : ℚ → ℚ} (hfl : RoundsToNearest fl) {lo hi B v : ℚ} (hlo : Repr 53 lo) (hhi : Repr 53 hi)
    (hB : |lo| ≤ B) (hB' : |hi| ≤ B) (hv : |v| ≤ 51 / 10 * B) :
    |limited fl lo hi v - ParamManager.limit1 ⟨lo, hi⟩ v| ≤ 163 / 10 * B / 2 ^ 53 := by
  have B0 : 0 ≤ B := (abs_nonneg _).trans hB
  have e1 : fl (2 * lo) = 2 * lo := fl_self hfl (repr_two_mul hlo)
  have e2 : fl (2 * hi) = 2 * hi := fl_self hfl (repr_two_mul hhi)
  unfold limited bound Rounding.limit1 ParamManager.limit1
  simp only [e1, e2]
  have hC : ∀ v w : ℚ, |min (max v lo) hi - min (max w lo) hi| ≤ |v - w| := by
    intro v w
    refine (abs_min_sub_min_le_max _ _ _ _).trans ?_
    rw [sub_self, abs_zero, max_eq_left (abs_nonneg _)]
    exact abs_max_sub_max_le_abs _ _ _
  refine (hC _ _).trans ?_
  have hB1 : ∀ v w : ℚ, |(if v > hi then 2 * hi - v else v) - (if w > hi then 2 * hi - w else w)| ≤ |v - w| := by
    intro v w
    split_ifs <;> rcases abs_cases (v - w) with ⟨h, h'⟩ | ⟨h, h'⟩ <;> rw [abs_le] <;> constructor <;> linarith
  obtain ⟨a1, a2⟩ := abs_le.1 hB
  obtain ⟨b1, b2⟩ := abs_le.1 hB'
  obtain ⟨c1, c2⟩ := abs_le.1 hv
  -- the first reflection
  have hx : |(if v < lo then fl (2 * lo - v) else v) - (if v < lo then 2 * lo - v else v)| ≤ 71 / 10 * B / 2 ^ 53 ∧
      |(if v < lo then fl (2 * lo - v) else v)| ≤ 715 / 100 * B := by
    by_cases h : v < lo
    · rw [if_pos h, if_pos h]
      have h1 := rounding_error_abs hfl (2 * lo - v)
      have h2 : |2 * lo - v| ≤ 71 / 10 * B := by rw [abs_le]; constructor <;> linarith
      have h3 : |2 * lo - v| / 2 ^ 53 ≤ 71 / 10 * B / 2 ^ 53 := div_le_div_of_nonneg_right h2 (by norm_num)
      refine ⟨h1.trans h3, ?_⟩
      have h4 : |fl (2 * lo - v)| ≤ |fl (2 * lo - v) - (2 * lo - v)| + |2 * lo - v| := by
        have : fl (2 * lo - v) = (fl (2 * lo - v) - (2 * lo - v)) + (2 * lo - v) := by ring
        conv_lhs => rw [this]
        exact abs_add_le _ _
      have h5 : 71 / 10 * B / 2 ^ 53 ≤ 5 / 100 * B := by
        rw [div_le_iff₀ (by norm_num)]; norm_num; linarith
      linarith
    · rw [if_neg h, if_neg h]
      refine ⟨by rw [sub_self, abs_zero]; positivity, by linarith⟩
  generalize (if v < lo then fl (2 * lo - v) else v) = x' at *
  generalize (if v < lo then 2 * lo - v else v) = x at *
  obtain ⟨hx, hx'⟩ := hx
  obtain ⟨d1, d2⟩ := abs_le.1 hx'
  have hy : |(if x' > hi then fl (2 * hi - x') else x') - (if x' > hi then 2 * hi - x' else x')| ≤ 92 / 10 * B / 2 ^ 53 := by
    by_cases h : x' > hi
    · rw [if_pos h, if_pos h]
      refine (rounding_error_abs hfl _).trans (div_le_div_of_nonneg_right ?_ (by norm_num))
      rw [abs_le]; constructor <;> linarith
    · rw [if_neg h, if_neg h, sub_self, abs_zero]; positivity
  have h3 := hB1 x' x
  generalize (if x' > hi then fl (2 * hi - x') else x') = y'' at *
  generalize (if x' > hi then 2 * hi - x' else x') = y' at *
  generalize (if x > hi then 2 * hi - x else x) = y at *
  have : |y'' - y| ≤ |y'' - y'| + |y' - y| := by
    have : y'' - y = (y'' - y') + (y' - y) := by ring
    rw [this]; exact abs_add_le _ _
  have : 71 / 10 * B / 2 ^ 53 + 92 / 10 * B / 2 ^ 53 = 163 / 10 * B / 2 ^ 53 := by ring
  linarith

/-- The rounding of the mutation. -/
theorem donor1_error {fl : ℚ → ℚ} (hfl : RoundsToNearest fl) {b x y F B : ℚ} (hb : |b| ≤ B) (hx : |x| ≤ B) (hy : |y| ≤ B)
    (hF : |F| ≤ 2) : |donor1 fl b x y F - (b + F * (x - y))| ≤ 131 / 10 * B / 2 ^ 53 ∧ |donor1 fl b x y F| ≤ 51 / 10 * B := by
  have B0 : 0 ≤ B := (abs_nonneg _).trans hb
  unfold donor1
  have hd : |x - y| ≤ 2 * B := (abs_sub _ _).trans (by linarith)
  have e1 := rounding_error_abs hfl (x - y)
  generalize x - y = d at *
  generalize fl d = D at *
  have e2 := rounding_error_abs hfl (D * F)
  have hp : |D * F - F * d| ≤ |D - d| * 2 := by
    have : D * F - F * d = (D - d) * F := by ring
    rw [this, abs_mul]
    exact mul_le_mul_of_nonneg_left hF (abs_nonneg _)
  have hFd : |F * d| ≤ 2 * (2 * B) := by
    rw [abs_mul]
    exact mul_le_mul hF hd (abs_nonneg _) (by norm_num)
  have hpp : |D * F| ≤ |D * F - F * d| + |F * d| := by
    have : D * F = (D * F - F * d) + F * d := by ring
    conv_lhs => rw [this]
    exact abs_add_le _ _
  generalize fl (D * F) = P at *
  have e3 := rounding_error_abs hfl (b + P)
  have hs : |b + P| ≤ |b| + (|P - D * F| + |D * F|) := by
    have : b + P = b + ((P - D * F) + D * F) := by ring
    rw [this]
    exact (abs_add_le _ _).trans (by linarith [abs_add_le (P - D * F) (D * F)])
  generalize fl (b + P) = V at *
  have h1 : |V - (b + F * d)| ≤ |V - (b + P)| + |P - D * F| + |D * F - F * d| := by
    have : V - (b + F * d) = (V - (b + P)) + (P - D * F) + (D * F - F * d) := by ring
    rw [this]; exact abs_add_three _ _ _
  have h2 : |V| ≤ |V - (b + P)| + |b + P| := by
    have : V = (V - (b + P)) + (b + P) := by ring
    conv_lhs => rw [this]
    exact abs_add_le _ _
  generalize |V - (b + F * d)| = r1 at *
  generalize |V - (b + P)| = r2 at *
  generalize |P - D * F| = r3 at *
  generalize |D * F - F * d| = r4 at *
  generalize |D * F| = r5 at *
  generalize |F * d| = r6 at *
  generalize |b + P| = r7 at *
  generalize |D - d| = r8 at *
  generalize |d| = r9 at *
  generalize |V| = r10 at *
  norm_num at *
  constructor <;> linarith

/-! ## Theorems -/

/-- C158: every parameter of the challenger is the target's value or, but for rounding, the limited donor value
`base + F*(r0 - r1)`.  The rounding is at most one part in `2^48` of the larger bound, for mutation factors up to 2. -/
theorem C158_parameter_form {fl : ℚ → ℚ} (hfl : RoundsToNearest fl) (bounds : List (ℚ × ℚ)) (CR : ℚ) (d : Challenge.Draws)
    (t b i0 i1 : List ℚ) (hF : |d.F| ≤ 2)
    (ht : t.length = bounds.length) (hb : b.length = bounds.length) (h0 : i0.length = bounds.length) (h1 : i1.length = bounds.length)
    (k : ℕ) (hk : k < bounds.length) (lo hi : ℚ) (hbd : bounds[k] = (lo, hi)) (hle : lo ≤ hi) (hlo : Repr 53 lo) (hhi : Repr 53 hi)
    (htw : lo ≤ t.getD k 0 ∧ t.getD k 0 ≤ hi) (hbw : lo ≤ b.getD k 0 ∧ b.getD k 0 ≤ hi)
    (h0w : lo ≤ i0.getD k 0 ∧ i0.getD k 0 ≤ hi) (h1w : lo ≤ i1.getD k 0 ∧ i1.getD k 0 ≤ hi) :
    ∃ w, (challenger fl bounds CR d t b i0 i1)[k]? = some w ∧ lo ≤ w ∧ w ≤ hi ∧
      ((k ≠ d.j ∧ CR < d.u k) ∧ some w = t[k]? ∨
        ¬ (k ≠ d.j ∧ CR < d.u k) ∧
        ∃ z, LimitedTo lo hi (b.getD k 0 + d.F * (i0.getD k 0 - i1.getD k 0)) z ∧ |w - z| ≤ max |lo| |hi| / 2 ^ 48) := by
  refine ⟨_, challenger_getElem? fl bounds CR d t b i0 i1 hb h0 h1 k hk, ?_⟩
  simp only [hbd]
  obtain ⟨hw1, hw2⟩ := Rounding.C105_limit_within (bound fl lo hi).rlo (bound fl lo hi).rhi lo hi
    (if k ≠ d.j ∧ CR < d.u k then t.getD k 0 else donor1 fl (b.getD k 0) (i0.getD k 0) (i1.getD k 0) d.F) hle
  refine ⟨hw1, hw2, ?_⟩
  clear hw1 hw2
  by_cases hc : k ≠ d.j ∧ CR < d.u k
  · left
    rw [if_pos hc]
    refine ⟨hc, ?_⟩
    unfold limited
    rw [Rounding.C105_limit_keeps _ _ lo hi _ htw.1 htw.2]
    have hlt : k < t.length := by rw [ht]; exact hk
    simp [List.getD, hlt]
  · right
    rw [if_neg hc]
    refine ⟨hc, _, Challenge.limit1_spec ⟨lo, hi⟩ hle _, ?_⟩
    have A : ∀ z, lo ≤ z ∧ z ≤ hi → |z| ≤ max |lo| |hi| := fun z hz => abs_le_max_abs_abs hz.1 hz.2
    obtain ⟨hd, hdB⟩ := donor1_error hfl (A _ hbw) (A _ h0w) (A _ h1w) hF
    have hl := limited_error hfl hlo hhi (le_max_left |lo| |hi|) (le_max_right |lo| |hi|) hdB
    have hp := limit1_lipschitz ⟨lo, hi⟩ (donor1 fl (b.getD k 0) (i0.getD k 0) (i1.getD k 0) d.F)
      (b.getD k 0 + d.F * (i0.getD k 0 - i1.getD k 0))
    have B0 : 0 ≤ max |lo| |hi| := (abs_nonneg _).trans (le_max_left |lo| |hi|)
    generalize max |lo| |hi| = B at *
    generalize donor1 fl (b.getD k 0) (i0.getD k 0) (i1.getD k 0) d.F = v at *
    generalize b.getD k 0 + d.F * (i0.getD k 0 - i1.getD k 0) = u at *
    generalize limited fl lo hi v = w at *
    generalize ParamManager.limit1 ⟨lo, hi⟩ v = z' at *
    generalize ParamManager.limit1 ⟨lo, hi⟩ u = z at *
    have : |w - z| ≤ |w - z'| + |z' - z| := by
      have : w - z = (w - z') + (z' - z) := by ring
      rw [this]; exact abs_add_le _ _
    norm_num at *
    linarith

/-- C158: a parameter in which the two other members agree has exactly the base's value, or the target's; so it does not change if
all members agree. -/
theorem C158_agreement {fl : ℚ → ℚ} (hfl : RoundsToNearest fl) (bounds : List (ℚ × ℚ)) (CR : ℚ) (d : Challenge.Draws)
    (t b i0 i1 : List ℚ)
    (hb : b.length = bounds.length) (h0 : i0.length = bounds.length) (h1 : i1.length = bounds.length)
    (k : ℕ) (hk : k < bounds.length) (htw : (bounds[k]).1 ≤ t.getD k 0 ∧ t.getD k 0 ≤ (bounds[k]).2)
    (hbw : (bounds[k]).1 ≤ b.getD k 0 ∧ b.getD k 0 ≤ (bounds[k]).2) (hbr : Repr 53 (b.getD k 0)) (he : i0.getD k 0 = i1.getD k 0) :
    (challenger fl bounds CR d t b i0 i1)[k]? = some (b.getD k 0) ∨
      (challenger fl bounds CR d t b i0 i1)[k]? = some (t.getD k 0) := by
  rw [challenger_getElem? fl bounds CR d t b i0 i1 hb h0 h1 k hk]
  have hz : fl 0 = 0 := fl_self hfl (Rounding.repr_zero 53)
  have hd : donor1 fl (b.getD k 0) (i0.getD k 0) (i1.getD k 0) d.F = b.getD k 0 := by
    rw [donor1, he, sub_self, hz, zero_mul, hz, add_zero, fl_self hfl hbr]
  rw [hd]
  unfold limited
  by_cases hc : k ≠ d.j ∧ CR < d.u k
  · right
    rw [if_pos hc, Rounding.C105_limit_keeps _ _ _ _ _ htw.1 htw.2]
  · left
    rw [if_neg hc, Rounding.C105_limit_keeps _ _ _ _ _ hbw.1 hbw.2]

/-! ## Powers of two as units -/

/-- Values in other units: parameter `k` in units that are `2^e k` times smaller. -/
def inUnits (e : ℕ → ℤ) (l : List ℚ) : List ℚ := l.mapIdx fun k x => x * 2 ^ e k

theorem inUnits_getD (e : ℕ → ℤ) (l : List ℚ) (k : ℕ) : (inUnits e l).getD k 0 = l.getD k 0 * 2 ^ e k := by
  unfold inUnits
  rw [List.getD_eq_getElem?_getD, List.getD_eq_getElem?_getD, List.getElem?_mapIdx]
  cases l[k]? <;> simp

theorem inUnits_getElem? (e : ℕ → ℤ) (l : List ℚ) (k : ℕ) : (inUnits e l)[k]? = l[k]?.map fun x => x * 2 ^ e k := by
  rw [inUnits, List.getElem?_mapIdx]

theorem limited_units {fl : ℚ → ℚ} (hfl : ∀ x (n : ℤ), fl (x * 2 ^ n) = fl x * 2 ^ n) (lo hi v : ℚ) (n : ℤ) :
    limited fl (lo * 2 ^ n) (hi * 2 ^ n) (v * 2 ^ n) = limited fl lo hi v * 2 ^ n := by
  have hp : (0 : ℚ) < 2 ^ n := by positivity
  unfold limited bound Rounding.limit1
  simp only [gt_iff_lt, ← mul_assoc, hfl, ← sub_mul, mul_lt_mul_iff_left₀ hp]
  have m1 : ∀ p : Prop, [Decidable p] → ∀ a b : ℚ, (if p then a * 2 ^ n else b * 2 ^ n) = (if p then a else b) * 2 ^ n := by
    intro p _ a b; split_ifs <;> rfl
  simp only [m1, ← sub_mul, hfl, mul_lt_mul_iff_left₀ hp]
  rw [← max_mul_of_nonneg _ _ hp.le, ← min_mul_of_nonneg _ _ hp.le]

/-- C158: with units that are powers of two apart, the challenger is exactly the same, for a rounding that is the same for all
powers of two. -/
theorem C158_units {fl : ℚ → ℚ} (hfl : ∀ x (n : ℤ), fl (x * 2 ^ n) = fl x * 2 ^ n) (bounds : List (ℚ × ℚ)) (CR : ℚ)
    (d : Challenge.Draws) (t b i0 i1 : List ℚ)
    (hb : b.length = bounds.length) (h0 : i0.length = bounds.length) (h1 : i1.length = bounds.length) (e : ℕ → ℤ) :
    challenger fl (bounds.mapIdx fun k p => (p.1 * 2 ^ e k, p.2 * 2 ^ e k)) CR d (inUnits e t) (inUnits e b) (inUnits e i0)
      (inUnits e i1) = inUnits e (challenger fl bounds CR d t b i0 i1) := by
  have hlen : ∀ l : List ℚ, (inUnits e l).length = l.length := fun l => by simp [inUnits]
  have hbl : (bounds.mapIdx fun k p => (p.1 * 2 ^ e k, p.2 * 2 ^ e k)).length = bounds.length := by simp
  have hcl : ∀ (bs : List (ℚ × ℚ)) (t b i0 i1 : List ℚ), b.length = bs.length → i0.length = bs.length → i1.length = bs.length →
      (challenger fl bs CR d t b i0 i1).length = bs.length := by
    intro bs t b i0 i1 hb h0 h1
    unfold challenger Rounding.limit Challenge.crossover Challenge.crossoverWith
    rw [List.length_zipWith, Challenge.crossover_step_length, donor_length fl b i0 i1 d.F _ hb h0 h1]
    simp
  apply List.ext_getElem?
  intro k
  by_cases hk : k < bounds.length
  · rw [challenger_getElem? fl _ CR d _ _ _ _ (by rw [hlen, hbl, hb]) (by rw [hlen, hbl, h0]) (by rw [hlen, hbl, h1]) k
      (by rw [hbl]; exact hk), inUnits_getElem?, challenger_getElem? fl bounds CR d t b i0 i1 hb h0 h1 k hk]
    simp only [List.getElem_mapIdx, inUnits_getD, Option.map_some, Option.some.injEq]
    have hd : donor1 fl (b.getD k 0 * 2 ^ e k) (i0.getD k 0 * 2 ^ e k) (i1.getD k 0 * 2 ^ e k) d.F =
        donor1 fl (b.getD k 0) (i0.getD k 0) (i1.getD k 0) d.F * 2 ^ e k := by
      unfold donor1
      rw [← sub_mul, hfl, mul_right_comm, hfl, ← add_mul, hfl]
    rw [hd]
    split_ifs
    · exact limited_units hfl _ _ _ _
    · exact limited_units hfl _ _ _ _
  · rw [List.getElem?_eq_none (by rw [hcl _ _ _ _ _ (by rw [hlen, hbl, hb]) (by rw [hlen, hbl, h0]) (by rw [hlen, hbl, h1]), hbl]; omega),
      List.getElem?_eq_none (by rw [hlen, hcl _ _ _ _ _ hb h0 h1]; omega)]

/-- Rounding halves to even is such a rounding. -/
theorem round53_units (x : ℚ) (n : ℤ) : round53 (x * 2 ^ n) = round53 x * 2 ^ n := by
  have hp : (0 : ℚ) < 2 ^ n := by positivity
  have key : ∀ x : ℚ, 0 < x → RatioRounded.roundPos (x * 2 ^ n) = RatioRounded.roundPos x * 2 ^ n := by
    intro x hx
    have hl : Int.log 2 (x * 2 ^ n) = Int.log 2 x + n := by
      have hxn : 0 < x * 2 ^ n := mul_pos hx hp
      have h1 := Int.zpow_log_le_self (b := 2) (r := x) (by norm_num) hx
      have h2 := Int.lt_zpow_succ_log_self (b := 2) (by norm_num) x
      push_cast at h1 h2
      apply le_antisymm
      · have : Int.log 2 (x * 2 ^ n) < Int.log 2 x + 1 + n := by
          rw [← Int.lt_zpow_iff_log_lt (by norm_num) hxn]
          push_cast
          rw [zpow_add₀ (by norm_num)]
          exact mul_lt_mul_of_pos_right h2 hp
        omega
      · rw [← Int.zpow_le_iff_le_log (by norm_num) hxn]
        push_cast
        rw [zpow_add₀ (by norm_num)]
        exact mul_le_mul_of_nonneg_right h1 hp.le
    unfold RatioRounded.roundPos
    simp only [hl]
    rw [show Int.log 2 x + n - 52 = (Int.log 2 x - 52) + n by ring, zpow_add₀ (by norm_num), mul_div_mul_right _ _ hp.ne', mul_assoc]
  unfold round53
  by_cases h1 : 0 < x
  · rw [if_pos h1, if_pos (mul_pos h1 hp), key x h1]
  · rw [if_neg h1, if_neg (fun h => h1 (pos_of_mul_pos_left h hp.le))]
    by_cases h2 : x < 0
    · rw [if_pos h2, if_pos (mul_neg_of_neg_of_pos h2 hp), ← neg_mul, key (-x) (neg_pos.2 h2), neg_mul]
    · have : x = 0 := by linarith
      subst this; simp

/-! ## Cases -/

/-- A challenge with two parameters, the first of which is mutated. -/
def exDraws : Challenge.Draws := ⟨round53 (7 / 10), 0, fun _ => 95 / 100⟩

example : challenger round53 [(0, 1), (-3, 5)] (8 / 10) exDraws [1 / 4, 2] [1 / 2, 1] [1 / 8, 3] [3 / 4, 4] =
    [round53 (1 / 2 - 7 / 16), 2] := by decide +kernel

theorem repr_int (z : ℤ) (h : |z| < 2 ^ 53) : Repr 53 z := ⟨z, 0, h, by simp⟩

example := C158_parameter_form round53_nearest [(0, 1), (-3, 5)] (8 / 10) exDraws [1 / 4, 2] [1 / 2, 1] [1 / 8, 3] [3 / 4, 4]
  (by decide +kernel) rfl rfl rfl rfl 0 (by decide) 0 1 rfl (by norm_num) (by simpa using repr_int 0 (by norm_num))
  (by simpa using repr_int 1 (by norm_num)) (by norm_num) (by norm_num) (by norm_num) (by norm_num)

example := C158_agreement round53_nearest [(0, 1), (-3, 5)] (8 / 10) exDraws [1 / 4, 2] [1 / 2, 1] [1 / 8, 3] [1 / 8, 4]
  rfl rfl rfl 0 (by decide) (by norm_num) (by norm_num) ⟨1, -1, by norm_num, by norm_num⟩ rfl

example := C158_units round53_units [(0, 1), (-3, 5)] (8 / 10) exDraws [1 / 4, 2] [1 / 2, 1] [1 / 8, 3] [3 / 4, 4] rfl rfl rfl
  (fun k => k + 1)

end ChallengeRounded
end Ade
