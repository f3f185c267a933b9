import Verif.Model.GpSingle
import Verif.Model.Voc
import Verif.Props.Single
import Mathlib.Tactic.Linarith
import Mathlib.Tactic.NormNum
import Mathlib.Tactic.Positivity
import Mathlib.Tactic.Ring

/-!
# C154: the Goldstein-Price program in single precision
-/

set_option autoImplicit false

namespace Ade
namespace GpSingle

/-- The function of Goldstein and Price in its usual form. -/
def exact (x y : ℚ) : ℚ :=
  (1 + (x + y + 1) ^ 2 * (19 - 14 * x + 3 * x ^ 2 - 14 * y + 6 * x * y + 3 * y ^ 2)) *
    (30 + (2 * x - 3 * y) ^ 2 * (18 - 32 * x + 12 * x ^ 2 + 48 * y - 36 * x * y + 27 * y ^ 2))

theorem rnd_err (a : ℚ) : |rnd a - a| ≤ |a| / 2 ^ 24 + 1 / 2 ^ 150 := by
  have h : |rnd a - a| = abs (Single.mag |a| - |a|) := Single.sg_err a
  rw [h]
  by_cases ha : 1 / 2 ^ 126 ≤ |a|
  · have := Single.mag_rel ha
    have h2 : (0 : ℚ) ≤ 1 / 2 ^ 150 := by positivity
    linarith
  · have := Single.mag_abs (abs_nonneg a) (not_le.1 ha)
    have h2 : 0 ≤ |a| / 2 ^ 24 := by positivity
    linarith

/-- `a` is an approximation of `b` with an error of at most `e`, and `b` is at most `M` in magnitude. -/
def Near (a b e M : ℚ) : Prop := |a - b| ≤ e ∧ |b| ≤ M

theorem near_rnd {a b e M : ℚ} (h : Near a b e M) (hM : 1 ≤ M) (he : e ≤ M / 10 ^ 3) :
    Near (rnd a) b (e + M * (6 / 10 ^ 8)) M := by
  obtain ⟨h1, h2⟩ := h
  refine ⟨?_, h2⟩
  have h3 := rnd_err a
  have h4 : |a| ≤ e + M := by
    have : |a| = |(a - b) + b| := by ring_nf
    rw [this]; exact (abs_add_le _ _).trans (add_le_add h1 h2)
  have h5 : |rnd a - b| ≤ |rnd a - a| + |a - b| := by
    have : rnd a - b = (rnd a - a) + (a - b) := by ring
    rw [this]; exact abs_add_le _ _
  have h6 : |a| / 2 ^ 24 + 1 / 2 ^ 150 ≤ M * (6 / 10 ^ 8) := by
    have : |a| ≤ M * (1001 / 1000) := by linarith
    have h7 : |a| / 2 ^ 24 ≤ M * (1001 / 1000) / 2 ^ 24 := by gcongr
    have h8 : M * (1001 / 1000) / 2 ^ 24 + M * (1 / 2 ^ 150) ≤ M * (6 / 10 ^ 8) := by
      have : M * (6 / 10 ^ 8) - (M * (1001 / 1000) / 2 ^ 24 + M * (1 / 2 ^ 150)) =
        M * (6 / 10 ^ 8 - 1001 / 1000 / 2 ^ 24 - 1 / 2 ^ 150) := by ring
      have hp : (0 : ℚ) ≤ 6 / 10 ^ 8 - 1001 / 1000 / 2 ^ 24 - 1 / 2 ^ 150 := by norm_num
      nlinarith
    have h9 : (1 : ℚ) / 2 ^ 150 ≤ M * (1 / 2 ^ 150) := by
      have : (0 : ℚ) ≤ 1 / 2 ^ 150 := by positivity
      nlinarith
    linarith
  linarith

theorem near_exact (a M : ℚ) (h : |a| ≤ M) : Near a a 0 M := ⟨by simp, h⟩

theorem Near.mono {a b e M e' M' : ℚ} (h : Near a b e M) (he : e ≤ e') (hM : M ≤ M') : Near a b e' M' :=
  ⟨h.1.trans he, h.2.trans hM⟩

theorem near_add {a b e A c d f C : ℚ} (h : Near a b e A) (k : Near c d f C) (hM : 1 ≤ A + C)
    (he : e + f ≤ (A + C) / 10 ^ 3) : Near (add a c) (b + d) (e + f + (A + C) * (6 / 10 ^ 8)) (A + C) := by
  refine near_rnd ⟨?_, (abs_add_le _ _).trans (add_le_add h.2 k.2)⟩ hM he
  have : a + c - (b + d) = (a - b) + (c - d) := by ring
  rw [this]; exact (abs_add_le _ _).trans (add_le_add h.1 k.1)

theorem near_sub {a b e A c d f C : ℚ} (h : Near a b e A) (k : Near c d f C) (hM : 1 ≤ A + C)
    (he : e + f ≤ (A + C) / 10 ^ 3) : Near (sub a c) (b - d) (e + f + (A + C) * (6 / 10 ^ 8)) (A + C) := by
  refine near_rnd ⟨?_, (abs_sub _ _).trans (add_le_add h.2 k.2)⟩ hM he
  have : a - c - (b - d) = (a - b) - (c - d) := by ring
  rw [this]; exact (abs_sub _ _).trans (add_le_add h.1 k.1)

theorem near_mul {a b e A c d f C : ℚ} (h : Near a b e A) (k : Near c d f C) (hM : 1 ≤ A * C)
    (he : A * f + (C + f) * e ≤ A * C / 10 ^ 3) :
    Near (mul a c) (b * d) (A * f + (C + f) * e + A * C * (6 / 10 ^ 8)) (A * C) := by
  refine near_rnd ⟨?_, ?_⟩ hM he
  · have : a * c - b * d = b * (c - d) + c * (a - b) := by ring
    rw [this]
    refine (abs_add_le _ _).trans ?_
    rw [abs_mul, abs_mul]
    have hc : |c| ≤ C + f := by
      have : |c| = |d + (c - d)| := by ring_nf
      rw [this]; exact (abs_add_le _ _).trans (add_le_add k.2 k.1)
    have hA : 0 ≤ A := (abs_nonneg _).trans h.2
    have hC : 0 ≤ C + f := (abs_nonneg _).trans hc
    exact add_le_add (mul_le_mul h.2 k.1 (abs_nonneg _) hA) (mul_le_mul hc h.1 (abs_nonneg _) hC)
  · rw [abs_mul]
    exact mul_le_mul h.2 k.2 (abs_nonneg _) ((abs_nonneg _).trans h.2)

/-- The first polynomial. -/
theorem near_poly1 {x y : ℚ} (hx : |x| ≤ 2) (hy : |y| ≤ 2) :
    Near (poly1 x y) (19 - 14 * x + 3 * x * x - 14 * y + 6 * x * y + 3 * y * y) (36 / 10 ^ 6) 123 := by
  have X := near_exact x 2 hx
  have Y := near_exact y 2 hy
  have c (k : ℚ) (hk : 0 ≤ k) : Near k k 0 k := near_exact k k (by rw [abs_of_nonneg hk])
  have h1 := near_sub (c 19 (by norm_num)) (near_mul (c 14 (by norm_num)) X (by norm_num) (by norm_num))
    (by norm_num) (by norm_num)
  have h2 := near_add h1 (near_mul (near_mul (c 3 (by norm_num)) X (by norm_num) (by norm_num)) X (by norm_num)
    (by norm_num)) (by norm_num) (by norm_num)
  have h3 := near_sub h2 (near_mul (c 14 (by norm_num)) Y (by norm_num) (by norm_num)) (by norm_num) (by norm_num)
  have h4 := near_add h3 (near_mul (near_mul (c 6 (by norm_num)) X (by norm_num) (by norm_num)) Y (by norm_num)
    (by norm_num)) (by norm_num) (by norm_num)
  have h5 := near_add h4 (near_mul (near_mul (c 3 (by norm_num)) Y (by norm_num) (by norm_num)) Y (by norm_num)
    (by norm_num)) (by norm_num) (by norm_num)
  exact h5.mono (by norm_num) (by norm_num)

/-- The second polynomial. -/
theorem near_poly2 {x y : ℚ} (hx : |x| ≤ 2) (hy : |y| ≤ 2) :
    Near (poly2 x y) (18 - 32 * x + 12 * x * x + 48 * y - 36 * x * y + 27 * y * y) (13 / 10 ^ 5) 478 := by
  have X := near_exact x 2 hx
  have Y := near_exact y 2 hy
  have c (k : ℚ) (hk : 0 ≤ k) : Near k k 0 k := near_exact k k (by rw [abs_of_nonneg hk])
  have h1 := near_sub (c 18 (by norm_num)) (near_mul (c 32 (by norm_num)) X (by norm_num) (by norm_num))
    (by norm_num) (by norm_num)
  have h2 := near_add h1 (near_mul (near_mul (c 12 (by norm_num)) X (by norm_num) (by norm_num)) X (by norm_num)
    (by norm_num)) (by norm_num) (by norm_num)
  have h3 := near_add h2 (near_mul (c 48 (by norm_num)) Y (by norm_num) (by norm_num)) (by norm_num) (by norm_num)
  have h4 := near_sub h3 (near_mul (near_mul (c 36 (by norm_num)) X (by norm_num) (by norm_num)) Y (by norm_num)
    (by norm_num)) (by norm_num) (by norm_num)
  have h5 := near_add h4 (near_mul (near_mul (c 27 (by norm_num)) Y (by norm_num) (by norm_num)) Y (by norm_num)
    (by norm_num)) (by norm_num) (by norm_num)
  exact h5.mono (by norm_num) (by norm_num)

/-- The first factor. -/
theorem near_first {x y : ℚ} (hx : |x| ≤ 2) (hy : |y| ≤ 2) :
    Near (add (mul (mul (add (add x y) 1) (add (add x y) 1)) (poly1 x y)) 1)
      ((x + y + 1) * (x + y + 1) * (19 - 14 * x + 3 * x * x - 14 * y + 6 * x * y + 3 * y * y) + 1) (23 / 10 ^ 4) 3076 := by
  have h1 := near_add (near_exact x 2 hx) (near_exact y 2 hy) (by norm_num) (by norm_num)
  have h2 := near_add h1 (near_exact 1 1 (by norm_num)) (by norm_num) (by norm_num)
  have h3 := near_mul h2 h2 (by norm_num) (by norm_num)
  have h4 := near_mul h3 (near_poly1 hx hy) (by norm_num) (by norm_num)
  have h5 := near_add h4 (near_exact 1 1 (by norm_num)) (by norm_num) (by norm_num)
  exact h5.mono (by norm_num) (by norm_num)

/-- The basis of the second factor. -/
theorem near_basis {x y : ℚ} (hx : |x| ≤ 2) (hy : |y| ≤ 2) :
    Near (sub (mul 2 x) (mul 3 y)) (2 * x - 3 * y) (12 / 10 ^ 7) 10 := by
  have h1 := near_mul (near_exact 2 2 (by norm_num)) (near_exact x 2 hx) (by norm_num) (by norm_num)
  have h2 := near_mul (near_exact 3 3 (by norm_num)) (near_exact y 2 hy) (by norm_num) (by norm_num)
  exact (near_sub h1 h2 (by norm_num) (by norm_num)).mono (by norm_num) (by norm_num)

/-- The second factor, for bounds of its basis and of its polynomial. -/
theorem near_second {x y U Q e : ℚ} (hx : |x| ≤ 2) (hy : |y| ≤ 2) (hU : |2 * x - 3 * y| ≤ U)
    (hQ : |18 - 32 * x + 12 * x * x + 48 * y - 36 * x * y + 27 * y * y| ≤ Q) (h1U : 4 ≤ U) (hU10 : U ≤ 10) (h1Q : 100 ≤ Q)
    (hQ1 : Q ≤ 478)
    (he : U * U * (13 / 10 ^ 5) + (Q + 1) * (24 / 10 ^ 7 * U + U * U * (6 / 10 ^ 8) + 1 / 10 ^ 10) +
      2 * (U * U * Q + 30) * (6 / 10 ^ 8) ≤ e) :
    Near (add (mul (mul (sub (mul 2 x) (mul 3 y)) (sub (mul 2 x) (mul 3 y))) (poly2 x y)) 30)
      ((2 * x - 3 * y) * (2 * x - 3 * y) * (18 - 32 * x + 12 * x * x + 48 * y - 36 * x * y + 27 * y * y) + 30) e
      (U * U * Q + 30) := by
  have h1 : Near (sub (mul 2 x) (mul 3 y)) (2 * x - 3 * y) (12 / 10 ^ 7) U := ⟨(near_basis hx hy).1, hU⟩
  have h2 : Near (poly2 x y) (18 - 32 * x + 12 * x * x + 48 * y - 36 * x * y + 27 * y * y) (13 / 10 ^ 5) Q :=
    ⟨(near_poly2 hx hy).1, hQ⟩
  have hUU : 16 ≤ U * U := by nlinarith
  have h3 := (near_mul h1 h1 (by linarith) (by linarith)).mono
    (e' := 24 / 10 ^ 7 * U + U * U * (6 / 10 ^ 8) + 1 / 10 ^ 10) (by linarith) le_rfl
  generalize hE : 24 / 10 ^ 7 * U + U * U * (6 / 10 ^ 8) + 1 / 10 ^ 10 = E at h3 he
  have hUU' : U * U ≤ 100 := by nlinarith
  have hE0 : 0 ≤ E := by rw [← hE]; positivity
  have hE1 : E ≤ 4 / 10 ^ 5 := by rw [← hE]; linarith
  have hP : 1600 ≤ U * U * Q := by nlinarith
  have h4 := near_mul h3 h2 (by linarith) (by nlinarith)
  have h5 := near_add h4 (near_exact 30 30 (by norm_num)) (by linarith) (by nlinarith)
  refine h5.mono ?_ le_rfl
  nlinarith

/-- The second factor has a relative error of at most 0.13 percent. -/
theorem second_rel {x y : ℚ} (hx : |x| ≤ 2) (hy : |y| ≤ 2) :
    let B := (2 * x - 3 * y) * (2 * x - 3 * y) * (18 - 32 * x + 12 * x * x + 48 * y - 36 * x * y + 27 * y * y) + 30
    3 ≤ B ∧ |add (mul (mul (sub (mul 2 x) (mul 3 y)) (sub (mul 2 x) (mul 3 y))) (poly2 x y)) 30 - B| ≤ B * (13 / 10 ^ 4) := by
  intro B
  have hq : 18 - 32 * x + 12 * x * x + 48 * y - 36 * x * y + 27 * y * y =
      3 * (2 * x - 3 * y) ^ 2 - 16 * (2 * x - 3 * y) + 18 := by ring
  have hB : B = 3 + (2 * x - 3 * y - 3) ^ 2 * (3 * (2 * x - 3 * y) ^ 2 + 2 * (2 * x - 3 * y) + 3) := by
    simp only [B]; ring
  have hu := (near_basis hx hy).2
  generalize hU : 2 * x - 3 * y = u at hB hq hu
  have p2 : 0 < 3 * u ^ 2 + 2 * u + 3 := by nlinarith [sq_nonneg (3 * u + 1)]
  have hB3 : 3 ≤ B := by rw [hB]; have : 0 ≤ (u - 3) ^ 2 * (3 * u ^ 2 + 2 * u + 3) := by positivity
                         linarith
  refine ⟨hB3, ?_⟩
  by_cases h4 : |u| ≤ 4
  · have hQ : |3 * u ^ 2 - 16 * u + 18| ≤ 130 := by
      obtain ⟨h5, h6⟩ := abs_le.1 h4
      rw [abs_le]; constructor <;> nlinarith
    have h := near_second (U := 4) (Q := 130) (e := 39 / 10 ^ 4) hx hy (by rw [hU]; exact h4) (by rw [hq]; exact hQ) le_rfl (by norm_num)
      (by norm_num) (by norm_num) (by norm_num)
    have : B * (13 / 10 ^ 4) ≥ 39 / 10 ^ 4 := by linarith
    exact h.1.trans this
  · have hB62 : 62 ≤ B := by
      rw [hB]
      rcases lt_or_ge u 0 with hn | hp
      · have : u < -4 := by
          rw [abs_of_neg hn] at h4; linarith
        have h7 : 49 ≤ (u - 3) ^ 2 := by nlinarith
        have h8 : 40 ≤ 3 * u ^ 2 + 2 * u + 3 := by nlinarith
        nlinarith
      · have : 4 < u := by
          rw [abs_of_nonneg hp] at h4; linarith
        have h7 : 1 ≤ (u - 3) ^ 2 := by nlinarith
        have h8 : 59 ≤ 3 * u ^ 2 + 2 * u + 3 := by nlinarith
        nlinarith
    have hQ := (near_poly2 hx hy).2
    have h := near_second (U := 10) (Q := 478) (e := 4 / 10 ^ 2) hx hy (by rw [hU]; exact hu) hQ (by norm_num) le_rfl (by norm_num) le_rfl
      (by norm_num)
    have : B * (13 / 10 ^ 4) ≥ 4 / 10 ^ 2 := by linarith
    exact h.1.trans this

/-- C154: within the bounds of the example the program computes the function with an error of at most 0.4 percent. -/
theorem C154_accurate (x y : ℚ) (hx : |x| ≤ 2) (hy : |y| ≤ 2) : |gp x y - exact x y| ≤ exact x y / 250 := by
  have hA := (near_first hx hy).1
  have hB := second_rel hx hy
  have hA1 : 1 ≤ (x + y + 1) * (x + y + 1) * (19 - 14 * x + 3 * x * x - 14 * y + 6 * x * y + 3 * y * y) + 1 := by
    have p1 : 0 < 19 - 14 * x + 3 * x * x - 14 * y + 6 * x * y + 3 * y * y := by
      nlinarith [sq_nonneg (3 * (x + y) - 7)]
    have := mul_nonneg (mul_self_nonneg (x + y + 1)) p1.le
    linarith
  have he : exact x y = ((x + y + 1) * (x + y + 1) * (19 - 14 * x + 3 * x * x - 14 * y + 6 * x * y + 3 * y * y) + 1) *
      ((2 * x - 3 * y) * (2 * x - 3 * y) * (18 - 32 * x + 12 * x * x + 48 * y - 36 * x * y + 27 * y * y) + 30) := by
    unfold exact; ring
  have hg : gp x y = rnd (add (mul (mul (add (add x y) 1) (add (add x y) 1)) (poly1 x y)) 1 *
      add (mul (mul (sub (mul 2 x) (mul 3 y)) (sub (mul 2 x) (mul 3 y))) (poly2 x y)) 30) := rfl
  rw [hg, he]
  obtain ⟨hB3, hB⟩ := hB
  generalize (x + y + 1) * (x + y + 1) * (19 - 14 * x + 3 * x * x - 14 * y + 6 * x * y + 3 * y * y) + 1 = A at *
  generalize (2 * x - 3 * y) * (2 * x - 3 * y) * (18 - 32 * x + 12 * x * x + 48 * y - 36 * x * y + 27 * y * y) + 30 = B at *
  generalize add (mul (mul (add (add x y) 1) (add (add x y) 1)) (poly1 x y)) 1 = a at *
  generalize add (mul (mul (sub (mul 2 x) (mul 3 y)) (sub (mul 2 x) (mul 3 y))) (poly2 x y)) 30 = b at *
  have hAB : 3 ≤ A * B := by nlinarith
  have h1 : |a * b - A * B| ≤ A * B * (37 / 10 ^ 4) := by
    have e : a * b - A * B = A * (b - B) + B * (a - A) + (a - A) * (b - B) := by ring
    rw [e]
    have t1 : |A * (b - B)| ≤ A * B * (13 / 10 ^ 4) := by
      rw [abs_mul, abs_of_nonneg (by linarith : 0 ≤ A)]; nlinarith
    have t2 : |B * (a - A)| ≤ A * B * (23 / 10 ^ 4) := by
      rw [abs_mul, abs_of_nonneg (by linarith : 0 ≤ B)]
      have : B * |a - A| ≤ B * (23 / 10 ^ 4) := mul_le_mul_of_nonneg_left hA (by linarith)
      nlinarith
    have t3 : |(a - A) * (b - B)| ≤ A * B * (1 / 10 ^ 4) := by
      rw [abs_mul]
      have h3 : |a - A| * |b - B| ≤ 23 / 10 ^ 4 * (B * (13 / 10 ^ 4)) :=
        mul_le_mul hA hB (abs_nonneg _) (by norm_num)
      nlinarith
    have := abs_add_le (A * (b - B) + B * (a - A)) ((a - A) * (b - B))
    have := abs_add_le (A * (b - B)) (B * (a - A))
    linarith
  have h2 := rnd_err (a * b)
  have h3 : |a * b| ≤ 2 * (A * B) := by
    have e : a * b = (a * b - A * B) + A * B := by ring
    rw [e]
    refine (abs_add_le _ _).trans ?_
    rw [abs_of_nonneg (by linarith : 0 ≤ A * B)]; linarith
  have h4 : |a * b| / 2 ^ 24 + 1 / 2 ^ 150 ≤ A * B * (3 / 10 ^ 4) := by
    have h5 : |a * b| / 2 ^ 24 ≤ 2 * (A * B) / 2 ^ 24 := by gcongr
    have h6 : (1 : ℚ) / 2 ^ 150 ≤ 1 / 10 ^ 4 := by norm_num
    have h7 : 2 * (A * B) / 2 ^ 24 ≤ A * B * (1 / 10 ^ 4) := by
      have : 2 * (A * B) / 2 ^ 24 = A * B * (2 / 2 ^ 24) := by ring
      rw [this]; exact mul_le_mul_of_nonneg_left (by norm_num) (by linarith)
    linarith
  have h5 : |rnd (a * b) - A * B| ≤ |rnd (a * b) - a * b| + |a * b - A * B| := by
    have e : rnd (a * b) - A * B = (rnd (a * b) - a * b) + (a * b - A * B) := by ring
    rw [e]; exact abs_add_le _ _
  linarith

/-- The function is never below 3. -/
theorem exact_ge (x y : ℚ) : 3 ≤ exact x y := by
  have hA : exact x y = (1 + (x + y + 1) ^ 2 * (3 * (x + y) ^ 2 - 14 * (x + y) + 19)) *
      (3 + (2 * x - 3 * y - 3) ^ 2 * (3 * (2 * x - 3 * y) ^ 2 + 2 * (2 * x - 3 * y) + 3)) := by
    unfold exact; ring
  have p1 : 0 < 3 * (x + y) ^ 2 - 14 * (x + y) + 19 := by nlinarith [sq_nonneg (3 * (x + y) - 7)]
  have p2 : 0 < 3 * (2 * x - 3 * y) ^ 2 + 2 * (2 * x - 3 * y) + 3 := by nlinarith [sq_nonneg (3 * (2 * x - 3 * y) + 1)]
  have q1 : 0 ≤ (x + y + 1) ^ 2 * (3 * (x + y) ^ 2 - 14 * (x + y) + 19) := by positivity
  have q2 : 0 ≤ (2 * x - 3 * y - 3) ^ 2 * (3 * (2 * x - 3 * y) ^ 2 + 2 * (2 * x - 3 * y) + 3) := by positivity
  rw [hA]
  nlinarith [mul_nonneg q1 q2]

/-- C154: of two points whose values differ by a hundredth, the program tells which is better. -/
theorem C154_order_partial (x y x' y' : ℚ) (hx : |x| ≤ 2) (hy : |y| ≤ 2) (hx' : |x'| ≤ 2) (hy' : |y'| ≤ 2)
    (h : exact x y * (101 / 100) ≤ exact x' y') : gp x y < gp x' y' := by
  have h1 := (abs_le.1 (C154_accurate x y hx hy)).2
  have h2 := (abs_le.1 (C154_accurate x' y' hx' hy')).1
  have h3 := exact_ge x y
  linarith

/-- C154: at the minimum the value is exact. -/
theorem C154_at_minimum : gp 0 (-1) = exact 0 (-1) ∧ exact 0 (-1) = 3 := by decide +kernel

/-- C154, negation: the program has lower values than that of the minimum; 2.99995, as in the recorded log. -/
theorem C154_below_minimum : ∃ x y : ℚ, Single.Float32 x ∧ Single.Float32 y ∧ |x| ≤ 2 ∧ |y| ≤ 2 ∧ (x, y) ≠ (0, -1) ∧
    3 < exact x y ∧ gp x y < gp 0 (-1) ∧ |gp x y - 299995 / 100000| < 5 / 1000000 :=
  ⟨5142651 / 2 ^ 36, -8388693 / 2 ^ 23, ⟨5142651, -36, by norm_num, by norm_num, by norm_num, by norm_num⟩,
    ⟨-8388693, -23, by norm_num, by norm_num, by norm_num, by norm_num⟩, by decide +kernel⟩

/-- C154: no value is below 2.988. -/
theorem C154_lowest_partial (x y : ℚ) (hx : |x| ≤ 2) (hy : |y| ≤ 2) : 2988 / 1000 ≤ gp x y := by
  have h2 := (abs_le.1 (C154_accurate x y hx hy)).1
  have h3 := exact_ge x y
  linarith

/-! ### Examples -/

/-- A value that is not exact. -/
example : gp (26136 / 100000) (-665602 / 1000000) ≠ exact (26136 / 100000) (-665602 / 1000000) := by decide +kernel

example := C154_accurate (1 / 3) (-2 / 3) (by norm_num [abs_le]) (by norm_num [abs_le])

example := C154_order_partial 0 (-1) (1 / 3) (-2 / 3) (by norm_num) (by norm_num) (by norm_num [abs_le])
  (by norm_num [abs_le]) (by decide +kernel)

example := C154_lowest_partial (1 / 3) (-2 / 3) (by norm_num [abs_le]) (by norm_num [abs_le])

end GpSingle
end Ade
