import Verif.Model.Individual
import Mathlib.Tactic.Linarith

/-! Helper lemmas about `PyFloat` comparisons. -/

set_option autoImplicit false

namespace Ade.PyFloat

theorem lt_irrefl (x : PyFloat) : lt x x = false := by
  cases x <;> simp [lt]

theorem lt_trans {x y z : PyFloat} (h₁ : lt x y = true) (h₂ : lt y z = true) : lt x z = true := by
  cases x <;> cases y <;> cases z <;> simp_all [lt]
  linarith

theorem lt_asymm {x y : PyFloat} (h : lt x y = true) : lt y x = false := by
  cases x <;> cases y <;> simp_all [lt]
  linarith

/-- Python's `<` is the order of the extended rationals, restricted to non-NaN operands. -/
theorem lt_iff_toExt (x y : PyFloat) :
    lt x y = true ↔ ∃ a b, x.toExt = some a ∧ y.toExt = some b ∧ a < b := by
  cases x <;> cases y <;> simp [lt, toExt, WithBot.coe_lt_coe, WithTop.coe_lt_coe]
  exact WithBot.coe_lt_coe.2 (WithTop.coe_lt_top _)

theorem not_lt_zero_cases {x : PyFloat} (h : lt x zero = false) :
    x = nan ∨ x = pinf ∨ ∃ q : ℚ, 0 ≤ q ∧ x = fin q := by
  cases x <;> simp_all [lt, zero]

/-- Trichotomy away from NaN. -/
theorem lt_trichotomy {x y : PyFloat} (hx : x ≠ nan) (hy : y ≠ nan) :
    lt x y = true ∨ x = y ∨ lt y x = true := by
  cases x <;> cases y <;> simp_all [lt]
  exact _root_.lt_trichotomy _ _

/-- If `x` is not better than `y`, and no NaN is involved, then `y ≤ x`. -/
theorem lt_false_trans {x y z : PyFloat} (hy : y ≠ nan) (h₁ : lt y x = false) (h₂ : lt z y = false) :
    lt z x = false := by
  cases x <;> cases y <;> cases z <;> simp_all [lt]
  linarith

end Ade.PyFloat
