import Verif.Model.RelationsRounded
import Verif.Props.RatioRounded
import Mathlib.Tactic.Linarith

/-!
# C155: relations between parameters are judged to within rounding
-/

set_option autoImplicit false

namespace Ade
namespace RelationsRounded

open ParamManager (Dict)
open Constraints (Relation)
open RatioRounded (RoundsToNearest round53 round53_nearest)

/-! ## Specification -/

/-- The values of both parameters are known, and the second deviates by at most `e` from the value that the relation has
for the first, in exact arithmetic. -/
def Deviates (params : Dict) (r : Relation) (e : ℚ → ℚ → ℚ) : Prop :=
  ∃ x y, params r.x = some x ∧ params r.y = some y ∧ |y - (r.m * x + r.b)| ≤ e x y

/-- The sizes of the numbers in the computation, in units of the last place but one. -/
def slack (r : Relation) (x y : ℚ) : ℚ := (|r.m * x| + |r.b| + |y|) / 2 ^ 51

/-! ## Rounding errors -/

theorem rounding_error_abs {fl : ℚ → ℚ} (hfl : RoundsToNearest fl) (x : ℚ) : |fl x - x| ≤ |x| / 2 ^ 53 := by
  rcases lt_trichotomy x 0 with h | h | h
  · have hfl' : RoundsToNearest (fun z => -fl (-z)) := by
      intro z
      obtain ⟨a, b⟩ := hfl (-z)
      refine ⟨RatioRounded.repr_neg a, fun w hw => ?_⟩
      have := b (-w) (RatioRounded.repr_neg hw)
      rw [show z - -fl (-z) = -(-z - fl (-z)) by ring, abs_neg, show z - w = -(-z - -w) by ring, abs_neg]
      exact this
    have := RatioRounded.rounding_error hfl' (neg_pos.2 h)
    simp only [neg_neg] at this
    rw [abs_of_neg h]
    rw [show -x - -fl x = fl x - x by ring] at this
    exact this
  · subst h
    rw [RatioRounded.fl_self hfl (Rounding.repr_zero 53)]
    simp
  · have := RatioRounded.rounding_error hfl h
    rw [abs_sub_comm, abs_of_pos h]
    exact this

theorem fl_eq_zero {fl : ℚ → ℚ} (hfl : RoundsToNearest fl) (x : ℚ) : fl x = 0 ↔ x = 0 := by
  constructor
  · intro h
    have := rounding_error_abs hfl x
    rw [h, zero_sub, abs_neg] at this
    have h0 := abs_nonneg x
    have : |x| = 0 := by
      by_contra hne
      have hp : 0 < |x| := lt_of_le_of_ne h0 (Ne.symm hne)
      have : |x| / 2 ^ 53 < |x| := div_lt_self hp (by norm_num)
      linarith
    exact abs_eq_zero.1 this
  · rintro rfl
    exact RatioRounded.fl_self hfl (Rounding.repr_zero 53)

/-- The computed deviation. -/
theorem deviation_error {fl : ℚ → ℚ} (hfl : RoundsToNearest fl) (r : Relation) (x y : ℚ) :
    |deviation fl r x y - (r.m * x + r.b - y)| ≤ slack r x y := by
  unfold deviation slack
  simp only
  generalize r.m * x = a
  generalize r.b = b
  have h1 := rounding_error_abs hfl a
  generalize fl a = A at *
  have h2 := rounding_error_abs hfl (A + b)
  generalize fl (A + b) = S at *
  have h3 := rounding_error_abs hfl (S - y)
  generalize fl (S - y) = D at *
  have a1 : |A + b| ≤ |A - a| + |a| + |b| := by
    have : A + b = (A - a) + a + b := by ring
    rw [this]; exact abs_add_three _ _ _
  have a2 : |S - y| ≤ |S - (A + b)| + |A + b| + |y| := by
    have : S - y = (S - (A + b)) + (A + b) + -y := by ring
    rw [this]; refine (abs_add_three _ _ _).trans ?_; rw [abs_neg]
  have a3 : |D - (a + b - y)| ≤ |D - (S - y)| + |S - (A + b)| + |A - a| := by
    have : D - (a + b - y) = (D - (S - y)) + (S - (A + b)) + (A - a) := by ring
    rw [this]; exact abs_add_three _ _ _
  have p1 := abs_nonneg a
  have p2 := abs_nonneg b
  have p3 := abs_nonneg y
  generalize |D - (a + b - y)| = d at *
  generalize |D - (S - y)| = e3 at *
  generalize |S - (A + b)| = e2 at *
  generalize |A - a| = e1 at *
  generalize |S - y| = n3 at *
  generalize |A + b| = n2 at *
  generalize |a| = n1 at *
  generalize |b| = nb at *
  generalize |y| = ny at *
  norm_num at h1 h2 h3 ⊢
  linarith

/-! ## Theorems -/

/-- C155: of parameters that are accepted, none deviates from a relation by more than its maximum and the rounding. -/
theorem C155_accepted {fl : ℚ → ℚ} (hfl : RoundsToNearest fl) (params : Dict) (rs : List Relation)
    (h : check fl params rs = some true) : ∀ r ∈ rs, Deviates params r fun x y => r.yMaxErr + slack r x y := by
  induction rs with
  | nil => simp
  | cons r rs ih =>
    unfold check at h
    cases hx : params r.x with
    | none => simp [hx] at h
    | some x =>
      cases hy : params r.y with
      | none => simp [hx, hy] at h
      | some y =>
        simp only [hx, hy] at h
        by_cases hd : |deviation fl r x y| > r.yMaxErr
        · simp [hd] at h
        rw [if_neg hd] at h
        rintro q hq
        rcases List.mem_cons.1 hq with rfl | hq
        · refine ⟨x, y, hx, hy, ?_⟩
          have := deviation_error hfl q x y
          have h2 : |y - (q.m * x + q.b)| ≤ |deviation fl q x y - (q.m * x + q.b - y)| + |deviation fl q x y| := by
            have e : y - (q.m * x + q.b) = (deviation fl q x y - (q.m * x + q.b - y)) + -deviation fl q x y := by ring
            rw [e]; refine (abs_add_le _ _).trans ?_; rw [abs_neg]
          linarith
        · exact ih h q hq

/-- C155: parameters that satisfy all relations, with the rounding to spare, are accepted. -/
theorem C155_satisfied {fl : ℚ → ℚ} (hfl : RoundsToNearest fl) (params : Dict) (rs : List Relation)
    (h : ∀ r ∈ rs, Deviates params r fun x y => r.yMaxErr - slack r x y) : check fl params rs = some true := by
  induction rs with
  | nil => rfl
  | cons r rs ih =>
    obtain ⟨x, y, hx, hy, hd⟩ := h r (by simp)
    have := deviation_error hfl r x y
    have h2 : |deviation fl r x y| ≤ |deviation fl r x y - (r.m * x + r.b - y)| + |y - (r.m * x + r.b)| := by
      have e : deviation fl r x y = (deviation fl r x y - (r.m * x + r.b - y)) + -(y - (r.m * x + r.b)) := by ring
      conv_lhs => rw [e]
      refine (abs_add_le _ _).trans ?_; rw [abs_neg]
    unfold check
    simp only [hx, hy]
    rw [if_neg (by rw [not_lt]; linarith)]
    exact ih fun q hq => h q (List.mem_cons_of_mem _ hq)

/-- C155: an answer is given if both parameters of every relation have values. -/
theorem C155_answered (fl : ℚ → ℚ) (params : Dict) (rs : List Relation)
    (h : ∀ r ∈ rs, (params r.x).isSome ∧ (params r.y).isSome) : (check fl params rs).isSome := by
  induction rs with
  | nil => rfl
  | cons r rs ih =>
    obtain ⟨h1, h2⟩ := h r (by simp)
    obtain ⟨x, hx⟩ := Option.isSome_iff_exists.1 h1
    obtain ⟨y, hy⟩ := Option.isSome_iff_exists.1 h2
    unfold check
    simp only [hx, hy]
    split_ifs
    · rfl
    · exact ih fun q hq => h q (List.mem_cons_of_mem _ hq)

/-- C155: with a maximum deviation of zero, the second parameter must be exactly the number computed from the first. -/
theorem C155_no_tolerance {fl : ℚ → ℚ} (hfl : RoundsToNearest fl) (params : Dict) (r : Relation) (h0 : r.yMaxErr = 0) (x y : ℚ)
    (hx : params r.x = some x) (hy : params r.y = some y) :
    check fl params [r] = some true ↔ y = fl (fl (r.m * x) + r.b) := by
  unfold check
  simp only [hx, hy, h0, check]
  have : (|deviation fl r x y| > 0) ↔ ¬ y = fl (fl (r.m * x) + r.b) := by
    rw [gt_iff_lt, abs_pos, ne_eq, deviation, fl_eq_zero hfl, sub_eq_zero, eq_comm]
  by_cases hy' : y = fl (fl (r.m * x) + r.b)
  · rw [if_neg (by rw [this]; exact not_not.2 hy')]; simp [hy']
  · rw [if_pos (this.2 hy')]; simp [hy']

/-- C155: a larger maximum never turns acceptance into rejection. -/
theorem C155_wider {fl : ℚ → ℚ} (params : Dict) (rs : List Relation) (wide : Relation → ℚ)
    (hw : ∀ r ∈ rs, r.yMaxErr ≤ wide r) (h : check fl params rs = some true) :
    check fl params (rs.map fun r => { r with yMaxErr := wide r }) = some true := by
  induction rs with
  | nil => rfl
  | cons r rs ih =>
    unfold check at h
    cases hx : params r.x with
    | none => simp [hx] at h
    | some x =>
      cases hy : params r.y with
      | none => simp [hx, hy] at h
      | some y =>
        simp only [hx, hy] at h
        by_cases hd : |deviation fl r x y| > r.yMaxErr
        · simp [hd] at h
        rw [if_neg hd] at h
        rw [List.map_cons, check]
        simp only [hx, hy]
        rw [if_neg]
        · exact ih (fun q hq => hw q (by simp [hq])) h
        · have := hw r (by simp)
          change ¬ |deviation fl r x y| > wide r
          rw [gt_iff_lt, not_lt] at hd ⊢
          exact hd.trans this

/-- C155: the rounding matters on the edge, in both directions.  With `y = x + b` and x = 1, y = 1, a `b` of 3/2^54 is rejected
though it is the maximum deviation, and a `b` of 1/2^53 is accepted though the maximum deviation is zero. -/
theorem C155_edge : ∃ params : Dict, ∃ r r' : Relation,
    Deviates params r (fun _ _ => r.yMaxErr) ∧ check round53 params [r] = some false ∧
      ¬ Deviates params r' (fun _ _ => r'.yMaxErr) ∧ check round53 params [r'] = some true := by
  refine ⟨fun _ => some 1, ⟨"a", "b", 1, 3 / 2 ^ 54, 3 / 2 ^ 54⟩, ⟨"a", "b", 1, 1 / 2 ^ 53, 0⟩, ⟨1, 1, rfl, rfl, ?_⟩,
    by decide +kernel, ?_, by decide +kernel⟩
  · norm_num [abs_of_nonneg, abs_of_neg]
  · rintro ⟨x, y, hx, hy, h⟩
    cases hx; cases hy
    norm_num [abs_of_nonneg, abs_of_neg] at h

/-! ## Cases -/

/-- Parameters with the values 0.1 and 0.3, as doubles. -/
def exDict : Dict := fun n => if n = "a" then some (round53 (1 / 10)) else if n = "b" then some (round53 (3 / 10)) else none

/-- 3*0.1 is not 0.3, but to within 1E-16. -/
example : check round53 exDict [⟨"a", "b", 3, 0, 0⟩] = some false ∧
    check round53 exDict [⟨"a", "b", 3, 0, 1 / 10 ^ 16⟩] = some true ∧
    check round53 exDict [⟨"a", "b", 3, 1, 1 / 10 ^ 16⟩] = some false ∧
    check round53 exDict [⟨"a", "c", 3, 0, 0⟩] = none := by decide +kernel

example := C155_accepted round53_nearest exDict [⟨"a", "b", 3, 0, 1 / 10 ^ 16⟩] (by decide +kernel)

example := C155_satisfied round53_nearest exDict [⟨"a", "b", 2, 1 / 10, 1 / 10⟩] (by
  intro r hr
  simp only [List.mem_singleton] at hr
  subst hr
  exact ⟨_, _, rfl, rfl, by decide +kernel⟩)

example := C155_answered round53 exDict [⟨"a", "b", 3, 0, 0⟩] (by decide +kernel)

example := C155_no_tolerance round53_nearest exDict ⟨"a", "b", 3, 0, 0⟩ rfl _ _ rfl rfl

example := C155_wider (fl := round53) exDict [⟨"a", "b", 3, 0, 1 / 10 ^ 16⟩] (fun _ => 1) (by decide +kernel) (by decide +kernel)

end RelationsRounded
end Ade
