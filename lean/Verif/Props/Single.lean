import Verif.Model.Single
import Verif.Props.Format
import Verif.Props.History

/-!
# What the history keeps of scores and values (C130)
-/

set_option autoImplicit false

namespace Ade
namespace Single

open Reporter (roundHalfEven round_nearest round_mono)

/-- A finite number of the format float32: 24 bits, scaled by a power of two from `2^-149` to `2^104`. -/
def Float32 (y : ℚ) : Prop := ∃ m e : ℤ, |m| < 2 ^ 24 ∧ -149 ≤ e ∧ e ≤ 104 ∧ y = m * 2 ^ e

theorem log2_bounds {a : ℚ} (ha : 0 < a) : (2 : ℚ) ^ Int.log 2 a ≤ a ∧ a < 2 ^ (Int.log 2 a + 1) := by
  have h1 := Int.zpow_log_le_self (b := 2) (r := a) (by norm_num) ha
  have h2 := Int.lt_zpow_succ_log_self (b := 2) (by norm_num) a
  push_cast at h1 h2
  exact ⟨h1, h2⟩

theorem scaled_lt {a : ℚ} (ha : 0 < a) : a / 2 ^ lastPlace a < 2 ^ 24 := by
  obtain ⟨-, h2⟩ := log2_bounds ha
  have hpos : (0 : ℚ) < 2 ^ lastPlace a := by positivity
  rw [div_lt_iff₀ hpos]
  refine lt_of_lt_of_le h2 ?_
  rw [← zpow_natCast, ← zpow_add₀ (by norm_num)]
  apply zpow_le_zpow_right₀ (by norm_num)
  unfold lastPlace; push_cast; omega

theorem scaled_ge {a : ℚ} (ha : 0 < a) (h : -149 < lastPlace a) : 2 ^ 23 ≤ a / 2 ^ lastPlace a := by
  obtain ⟨h1, -⟩ := log2_bounds ha
  have hpos : (0 : ℚ) < 2 ^ lastPlace a := by positivity
  rw [le_div_iff₀ hpos]
  refine le_trans ?_ h1
  rw [← zpow_natCast, ← zpow_add₀ (by norm_num)]
  apply zpow_le_zpow_right₀ (by norm_num)
  unfold lastPlace at *; push_cast; omega

theorem sig_le {a : ℚ} (ha : 0 < a) : roundHalfEven (a / 2 ^ lastPlace a) ≤ 2 ^ 24 := by
  have h := round_mono (x := a / 2 ^ lastPlace a) (by positivity) (scaled_lt ha).le
  rwa [show ((2 : ℚ) ^ 24) = ((2 ^ 24 : ℕ) : ℚ) by norm_num, Format.round_nat] at h

theorem sig_ge {a : ℚ} (ha : 0 < a) (h : -149 < lastPlace a) :
    2 ^ 23 ≤ roundHalfEven (a / 2 ^ lastPlace a) := by
  have h := round_mono (by positivity) (scaled_ge ha h)
  rwa [show ((2 : ℚ) ^ 23) = ((2 ^ 23 : ℕ) : ℚ) by norm_num, Format.round_nat] at h

theorem mag_nonneg (a : ℚ) : 0 ≤ mag a := by
  unfold mag; positivity

theorem mag_zero : mag 0 = 0 := by decide +kernel

theorem mag_mono {a b : ℚ} (ha : 0 ≤ a) (hab : a ≤ b) : mag a ≤ mag b := by
  rcases ha.eq_or_lt with rfl | ha
  · rw [mag_zero]; exact mag_nonneg b
  have hb : 0 < b := lt_of_lt_of_le ha hab
  have hlog : Int.log 2 a ≤ Int.log 2 b := Int.log_mono_right ha hab
  have hle : lastPlace a ≤ lastPlace b := by unfold lastPlace; omega
  rcases lt_or_eq_of_le hle with h | h
  · have h0 : -149 ≤ lastPlace a := by unfold lastPlace; omega
    have h1 := sig_le ha
    have h2 := sig_ge hb (by omega)
    have h3 : mag a ≤ 2 ^ (lastPlace a + 24) := by
      have : ((roundHalfEven (a / 2 ^ lastPlace a) : ℕ) : ℚ) ≤ 2 ^ 24 := by exact_mod_cast h1
      have h4 : mag a ≤ (2 : ℚ) ^ 24 * 2 ^ lastPlace a := mul_le_mul_of_nonneg_right this (by positivity)
      rwa [← zpow_natCast, ← zpow_add₀ (by norm_num),
        show ((24 : ℕ) : ℤ) + lastPlace a = lastPlace a + 24 by push_cast; omega] at h4
    have h5 : (2 : ℚ) ^ (lastPlace b + 23) ≤ mag b := by
      have : (2 : ℚ) ^ 23 ≤ ((roundHalfEven (b / 2 ^ lastPlace b) : ℕ) : ℚ) := by exact_mod_cast h2
      have h4 : (2 : ℚ) ^ 23 * 2 ^ lastPlace b ≤ mag b := mul_le_mul_of_nonneg_right this (by positivity)
      rwa [← zpow_natCast, ← zpow_add₀ (by norm_num),
        show ((23 : ℕ) : ℤ) + lastPlace b = lastPlace b + 23 by push_cast; omega] at h4
    have h6 : (2 : ℚ) ^ (lastPlace a + 24) ≤ 2 ^ (lastPlace b + 23) :=
      zpow_le_zpow_right₀ (by norm_num) (by omega)
    linarith
  · unfold mag
    rw [h]
    have hpos : (0 : ℚ) < 2 ^ lastPlace b := by positivity
    apply mul_le_mul_of_nonneg_right _ hpos.le
    have := round_mono (x := a / 2 ^ lastPlace b) (by positivity) (div_le_div_of_nonneg_right hab hpos.le)
    exact_mod_cast this

/-- A number that is a multiple of its last place is kept. -/
theorem mag_of_mul {a : ℚ} (k : ℕ) (h : a = k * 2 ^ lastPlace a) : mag a = a := by
  have hpos : (2 : ℚ) ^ lastPlace a ≠ 0 := by positivity
  have : a / 2 ^ lastPlace a = k := by rw [div_eq_iff hpos]; exact h
  unfold mag
  rw [this, Format.round_nat]
  exact h.symm

/-- Numbers of at most 24 bits are kept. -/
theorem mag_exact (k : ℕ) (e : ℤ) (hk : k ≤ 2 ^ 24) (he : -149 ≤ e) :
    mag ((k : ℚ) * 2 ^ e) = k * 2 ^ e := by
  rcases Nat.eq_zero_or_pos k with rfl | hk0
  · simp [mag_zero]
  set a : ℚ := (k : ℚ) * 2 ^ e with ha
  have hk0' : (0 : ℚ) < k := by exact_mod_cast hk0
  have hapos : 0 < a := by positivity
  obtain ⟨h1, -⟩ := log2_bounds hapos
  have hle : a ≤ 2 ^ (e + 24) := by
    have : (k : ℚ) ≤ 2 ^ 24 := by exact_mod_cast hk
    have h4 : a ≤ (2 : ℚ) ^ 24 * 2 ^ e := mul_le_mul_of_nonneg_right this (by positivity)
    rwa [← zpow_natCast, ← zpow_add₀ (by norm_num),
      show ((24 : ℕ) : ℤ) + e = e + 24 by push_cast; omega] at h4
  have hlog : Int.log 2 a ≤ e + 24 :=
    (zpow_le_zpow_iff_right₀ (by norm_num : (1 : ℚ) < 2)).1 (h1.trans hle)
  rcases le_or_gt (lastPlace a) e with h | h
  · obtain ⟨d, hd⟩ := Int.eq_ofNat_of_zero_le (sub_nonneg.2 h)
    apply mag_of_mul (k * 2 ^ d)
    push_cast
    rw [mul_assoc, ← zpow_natCast, ← zpow_add₀ (by norm_num), show (d : ℤ) + lastPlace a = e by omega]
  · have hlp : lastPlace a = e + 1 ∧ Int.log 2 a = e + 24 := by unfold lastPlace at *; omega
    have hae : a = 2 ^ (e + 24) := le_antisymm hle (by rw [hlp.2] at h1; exact h1)
    apply mag_of_mul (2 ^ 23)
    rw [hlp.1, hae]
    rw [show ((2 ^ 23 : ℕ) : ℚ) = 2 ^ (23 : ℤ) by norm_num, ← zpow_add₀ (by norm_num),
      show (23 : ℤ) + (e + 1) = e + 24 by omega]

theorem mag_form (a : ℚ) (ha : 0 ≤ a) : ∃ k : ℕ, ∃ e : ℤ, k ≤ 2 ^ 24 ∧ -149 ≤ e ∧ mag a = k * 2 ^ e := by
  rcases ha.eq_or_lt with rfl | ha
  · exact ⟨0, 0, by norm_num, by norm_num, by simp [mag_zero]⟩
  · exact ⟨_, _, sig_le ha, by unfold lastPlace; omega, rfl⟩

theorem mag_idem (a : ℚ) (ha : 0 ≤ a) : mag (mag a) = mag a := by
  obtain ⟨k, e, hk, he, h⟩ := mag_form a ha
  rw [h, mag_exact k e hk he]

theorem mag_err {a : ℚ} (ha : 0 ≤ a) : |mag a - a| ≤ 2 ^ (lastPlace a - 1) := by
  have hpos : (0 : ℚ) < 2 ^ lastPlace a := by positivity
  have h := round_nearest (x := a / 2 ^ lastPlace a) (by positivity)
  unfold Reporter.Nearest at h
  have : mag a - a = ((roundHalfEven (a / 2 ^ lastPlace a) : ℚ) - a / 2 ^ lastPlace a) * 2 ^ lastPlace a := by
    unfold mag; rw [sub_mul, div_mul_cancel₀ _ hpos.ne']
  rw [this, abs_mul, abs_of_pos hpos, zpow_sub_one₀ (by norm_num)]
  have := mul_le_mul_of_nonneg_right h hpos.le
  linarith

/-- No multiple of the last place is nearer. -/
theorem mag_near {a : ℚ} (ha : 0 ≤ a) (n : ℤ) : |a - mag a| ≤ |a - n * 2 ^ lastPlace a| := by
  have hpos : (0 : ℚ) < 2 ^ lastPlace a := by positivity
  by_contra hlt
  push Not at hlt
  have h := round_nearest (x := a / 2 ^ lastPlace a) (by positivity)
  unfold Reporter.Nearest at h
  set r := roundHalfEven (a / 2 ^ lastPlace a) with hr
  set x := a / 2 ^ lastPlace a with hx
  have e1 : a - mag a = (x - r) * 2 ^ lastPlace a := by
    rw [sub_mul, hx, div_mul_cancel₀ _ hpos.ne']; rfl
  have e2 : a - n * 2 ^ lastPlace a = (x - n) * 2 ^ lastPlace a := by
    rw [sub_mul, hx, div_mul_cancel₀ _ hpos.ne']
  rw [e1, e2, abs_mul, abs_mul, abs_of_pos hpos] at hlt
  have hlt := lt_of_mul_lt_mul_right hlt hpos.le
  rw [abs_sub_comm] at h
  have hne : (n : ℤ) ≠ r := by
    rintro rfl
    simp at hlt
  have : (1 : ℚ) ≤ |(n : ℚ) - r| := by
    have : (1 : ℤ) ≤ |n - r| := Int.one_le_abs (sub_ne_zero.2 hne)
    exact_mod_cast this
  have ht : |(n : ℚ) - r| ≤ |x - n| + |x - r| := by
    have := abs_sub_le (n : ℚ) x r
    rwa [abs_sub_comm (n : ℚ) x] at this
  linarith

/-- The nearest number of the format. -/
theorem mag_nearest {a : ℚ} (ha : 0 ≤ a) {z : ℚ} (hz : Float32 z) : |a - mag a| ≤ |a - z| := by
  rcases ha.eq_or_lt with rfl | ha0
  · rw [mag_zero]; simp
  obtain ⟨m, e, hm, he, -, rfl⟩ := hz
  rcases le_or_gt (lastPlace a) e with h | h
  · obtain ⟨d, hd⟩ := Int.eq_ofNat_of_zero_le (sub_nonneg.2 h)
    have := mag_near ha (m * 2 ^ d)
    push_cast at this
    rwa [mul_assoc, ← zpow_natCast, ← zpow_add₀ (by norm_num), show (d : ℤ) + lastPlace a = e by omega] at this
  · -- a coarser last place: the number is below `2^(lastPlace + 23)`, which is not above `a`
    have hlp : -149 < lastPlace a := by omega
    have h1 := scaled_ge ha0 hlp
    have hpos : (0 : ℚ) < 2 ^ lastPlace a := by positivity
    rw [le_div_iff₀ hpos] at h1
    have h2 := mag_near ha (2 ^ 23)
    push_cast at h2
    refine h2.trans ?_
    have h3 : (m : ℚ) * 2 ^ e ≤ 2 ^ 23 * 2 ^ lastPlace a := by
      have hm' : (m : ℚ) ≤ 2 ^ 24 := by
        have : m ≤ 2 ^ 24 := (le_abs_self m).trans hm.le
        exact_mod_cast this
      have h4 : (m : ℚ) * 2 ^ e ≤ (2 : ℚ) ^ 24 * 2 ^ e := mul_le_mul_of_nonneg_right hm' (by positivity)
      refine h4.trans ?_
      rw [← zpow_natCast, ← zpow_natCast, ← zpow_add₀ (by norm_num), ← zpow_add₀ (by norm_num)]
      apply zpow_le_zpow_right₀ (by norm_num)
      push_cast; omega
    rw [abs_of_nonneg (by linarith), abs_of_nonneg (by linarith)]
    linarith

theorem round_even {x : ℚ} (hx : 0 ≤ x) (h : |x - (roundHalfEven x : ℚ)| = 1 / 2) : Even (roundHalfEven x) := by
  have h1 := Int.floor_le x
  have h2 := Int.lt_floor_add_one x
  have hc := Reporter.floor_cast hx
  revert h
  unfold roundHalfEven
  simp only
  split_ifs with ha hb hd
  · intro h
    rw [hc] at *
    rw [abs_of_nonneg (by linarith)] at h
    linarith
  · intro h
    push_cast at h
    rw [hc] at *
    rw [abs_of_nonpos (by linarith)] at h
    linarith
  · intro _; exact Nat.even_iff.2 hd
  · intro _; exact Nat.even_add_one.2 (fun he => hd (Nat.even_iff.1 he))

/-- Of two equally near numbers the one with the even last place is taken. -/
theorem mag_tie {a : ℚ} (ha : 0 ≤ a) {z : ℚ} (hz : Float32 z) (hne : z ≠ mag a) (ht : |a - z| = |a - mag a|) :
    ∃ k : ℤ, mag a = 2 * k * (z - mag a) := by
  rcases ha.eq_or_lt with rfl | ha0
  · exact ⟨0, by simp [mag_zero]⟩
  have hpos : (0 : ℚ) < 2 ^ lastPlace a := by positivity
  -- both are multiples of the last place
  have hgrid : ∃ n : ℤ, z = n * 2 ^ lastPlace a := by
    obtain ⟨m, e, hm, he, -, rfl⟩ := hz
    rcases le_or_gt (lastPlace a) e with h | h
    · obtain ⟨d, hd⟩ := Int.eq_ofNat_of_zero_le (sub_nonneg.2 h)
      refine ⟨m * 2 ^ d, ?_⟩
      push_cast
      rw [mul_assoc, ← zpow_natCast, ← zpow_add₀ (by norm_num), show (d : ℤ) + lastPlace a = e by omega]
    · have hlp : -149 < lastPlace a := by omega
      have h1 := scaled_ge ha0 hlp
      rw [le_div_iff₀ hpos] at h1
      have h2 := mag_near ha (2 ^ 23)
      push_cast at h2
      have h3 : (m : ℚ) * 2 ^ e ≤ 2 ^ 23 * 2 ^ lastPlace a := by
        have hm' : (m : ℚ) ≤ 2 ^ 24 := by
          have : m ≤ 2 ^ 24 := (le_abs_self m).trans hm.le
          exact_mod_cast this
        have h4 : (m : ℚ) * 2 ^ e ≤ (2 : ℚ) ^ 24 * 2 ^ e := mul_le_mul_of_nonneg_right hm' (by positivity)
        refine h4.trans ?_
        rw [← zpow_natCast, ← zpow_natCast, ← zpow_add₀ (by norm_num), ← zpow_add₀ (by norm_num)]
        apply zpow_le_zpow_right₀ (by norm_num)
        push_cast; omega
      rw [← ht, abs_of_nonneg (by linarith), abs_of_nonneg (by linarith)] at h2
      exact ⟨2 ^ 23, by push_cast; linarith⟩
  obtain ⟨n, rfl⟩ := hgrid
  set x := a / 2 ^ lastPlace a with hx
  set r := roundHalfEven x with hr
  have hx0 : 0 ≤ x := by positivity
  have e1 : a - mag a = (x - r) * 2 ^ lastPlace a := by
    rw [sub_mul, hx, div_mul_cancel₀ _ hpos.ne']; rfl
  have e2 : a - n * 2 ^ lastPlace a = (x - n) * 2 ^ lastPlace a := by
    rw [sub_mul, hx, div_mul_cancel₀ _ hpos.ne']
  have hmag : mag a = r * 2 ^ lastPlace a := rfl
  rw [e1, e2, abs_mul, abs_mul, abs_of_pos hpos] at ht
  have ht : |x - n| = |x - r| := mul_right_cancel₀ hpos.ne' ht
  have hnr : (n : ℤ) ≠ r := by
    rintro rfl
    exact hne (by rw [hmag]; norm_cast)
  have hn := round_nearest hx0
  unfold Reporter.Nearest at hn
  rw [← hr, abs_sub_comm] at hn
  have hge : (1 : ℚ) ≤ |(n : ℚ) - r| := by
    have : (1 : ℤ) ≤ |n - r| := Int.one_le_abs (sub_ne_zero.2 hnr)
    exact_mod_cast this
  have htri : |(n : ℚ) - r| ≤ |x - n| + |x - r| := by
    have := abs_sub_le (n : ℚ) x r
    rwa [abs_sub_comm (n : ℚ) x] at this
  have hhalf : |x - r| = 1 / 2 := by linarith
  obtain ⟨j, hj⟩ := round_even hx0 hhalf
  rw [← hr] at hj
  have h1 : |n - (r : ℤ)| = 1 := by
    have : |(n : ℚ) - r| = 1 := by linarith
    exact_mod_cast this
  have hr2 : (r : ℚ) = 2 * j := by rw [hj]; push_cast; ring
  rcases (abs_eq (by norm_num)).1 h1 with h | h
  · refine ⟨j, ?_⟩
    have : (n : ℚ) = r + 1 := by exact_mod_cast (by omega : n = r + 1)
    rw [hmag, this, hr2]; push_cast; ring
  · refine ⟨-j, ?_⟩
    have : (n : ℚ) = r - 1 := by
      have : n = (r : ℤ) - 1 := by omega
      exact_mod_cast this
    rw [hmag, this, hr2]; push_cast; ring

/-- Overflow threshold: half a unit below `2^128`. -/
def limit : ℚ := 2 ^ 128 - 2 ^ 103

theorem mag_limit : mag limit = 2 ^ 128 := by decide +kernel

theorem mag_overflow {a : ℚ} (ha : 0 ≤ a) : 2 ^ 128 ≤ mag a ↔ limit ≤ a := by
  constructor
  · intro h
    by_contra hlt
    push Not at hlt
    -- below the threshold the largest finite number is nearer than `2^128`
    have hz : Float32 ((2 ^ 24 - 1 : ℤ) * 2 ^ (104 : ℤ)) := ⟨2 ^ 24 - 1, 104, by norm_num, by norm_num, le_refl _, by push_cast; rfl⟩
    have h1 := mag_nearest ha hz
    have h2 : ((2 ^ 24 - 1 : ℤ) : ℚ) * 2 ^ (104 : ℤ) = 2 ^ 128 - 2 ^ 104 := by norm_num
    rw [h2, abs_sub_comm, abs_of_nonneg (by unfold limit at hlt; linarith)] at h1
    unfold limit at hlt
    rcases le_or_gt (2 ^ 128 - 2 ^ 104) a with h3 | h3
    · rw [abs_of_nonneg (by linarith)] at h1
      norm_num at *
      linarith
    · rw [abs_of_neg (by linarith)] at h1
      norm_num at *
      linarith
  · intro h
    have := mag_mono (by unfold limit; norm_num) h
    rw [mag_limit] at this
    exact this

theorem float32_mag {a : ℚ} (ha : 0 ≤ a) (h : mag a < 2 ^ 128) : Float32 (mag a) := by
  obtain ⟨k, e, hk, he, hm⟩ := mag_form a ha
  rw [hm] at h ⊢
  rcases le_or_gt 104 e with h104 | h104
  · -- the bound cuts the exponent
    obtain ⟨d, hd⟩ := Int.eq_ofNat_of_zero_le (sub_nonneg.2 h104)
    have hx : (k : ℚ) * 2 ^ e = ((k * 2 ^ d : ℕ) : ℚ) * 2 ^ (104 : ℤ) := by
      rw [Nat.cast_mul, Nat.cast_pow, mul_assoc, ← zpow_natCast, Nat.cast_ofNat, ← zpow_add₀ (by norm_num),
        show (d : ℤ) + 104 = e by omega]
    refine ⟨((k * 2 ^ d : ℕ) : ℤ), 104, ?_, by norm_num, le_refl _, by rw [hx]; norm_cast⟩
    rw [hx, show (2 : ℚ) ^ 128 = 2 ^ 24 * 2 ^ (104 : ℤ) by norm_num] at h
    have := lt_of_mul_lt_mul_right h (by positivity)
    rw [abs_of_nonneg (by positivity)]
    exact_mod_cast this
  rcases lt_or_eq_of_le hk with hk | rfl
  · exact ⟨k, e, by rw [abs_of_nonneg (by positivity)]; exact_mod_cast hk, he, h104.le, by norm_cast⟩
  · refine ⟨2 ^ 23, e + 1, by norm_num, by omega, by omega, ?_⟩
    rw [zpow_add_one₀ (by norm_num)]
    push_cast
    ring

/-! ## The conversion -/

/-- The rounded number before the range is looked at. -/
def sg (q : ℚ) : ℚ := if q < 0 then -mag |q| else mag |q|

theorem sg_nonneg {q : ℚ} (h : 0 ≤ q) : sg q = mag q := by
  unfold sg; rw [if_neg (not_lt.2 h), abs_of_nonneg h]

theorem sg_neg {q : ℚ} (h : q < 0) : sg q = -mag (-q) := by
  unfold sg; rw [if_pos h, abs_of_neg h]

theorem sg_odd (q : ℚ) : sg (-q) = -sg q := by
  rcases lt_trichotomy q 0 with h | rfl | h
  · rw [sg_neg h, sg_nonneg (by linarith)]; simp
  · simp [sg_nonneg, mag_zero]
  · rw [sg_nonneg h.le, sg_neg (by linarith)]; simp

theorem sg_mono {p q : ℚ} (h : p ≤ q) : sg p ≤ sg q := by
  rcases lt_or_ge p 0 with hp | hp
  · rcases lt_or_ge q 0 with hq | hq
    · rw [sg_neg hp, sg_neg hq]
      have := mag_mono (a := -q) (b := -p) (by linarith) (by linarith)
      linarith
    · rw [sg_neg hp, sg_nonneg hq]
      have := mag_nonneg (-p)
      have := mag_nonneg q
      linarith
  · rw [sg_nonneg hp, sg_nonneg (hp.trans h)]
    exact mag_mono hp h

theorem sg_idem (q : ℚ) : sg (sg q) = sg q := by
  rcases lt_or_ge q 0 with h | h
  · rw [sg_neg h, sg_odd, sg_nonneg (mag_nonneg _), mag_idem _ (by linarith)]
  · rw [sg_nonneg h, sg_nonneg (mag_nonneg _), mag_idem _ h]

theorem float32_neg {y : ℚ} (h : Float32 y) : Float32 (-y) := by
  obtain ⟨m, e, hm, h1, h2, rfl⟩ := h
  exact ⟨-m, e, by rwa [abs_neg], h1, h2, by push_cast; ring⟩

theorem sg_float32 {q : ℚ} (h : |sg q| < 2 ^ 128) : Float32 (sg q) := by
  rcases lt_or_ge q 0 with hq | hq
  · rw [sg_neg hq] at h ⊢
    rw [abs_neg, abs_of_nonneg (mag_nonneg _)] at h
    exact float32_neg (float32_mag (by linarith) h)
  · rw [sg_nonneg hq] at h ⊢
    rw [abs_of_nonneg (mag_nonneg _)] at h
    exact float32_mag hq h

theorem sg_nearest (q : ℚ) {z : ℚ} (hz : Float32 z) : |q - sg q| ≤ |q - z| := by
  rcases lt_or_ge q 0 with hq | hq
  · have := mag_nearest (a := -q) (by linarith) (float32_neg hz)
    rw [sg_neg hq]
    rwa [← abs_neg, show -(-q - mag (-q)) = q - -mag (-q) by ring, ← abs_neg (-q - -z),
      show -(-q - -z) = q - z by ring] at this
  · rw [sg_nonneg hq]; exact mag_nearest hq hz

theorem abs_sg (q : ℚ) : |sg q| = mag |q| := by
  unfold sg
  split_ifs
  · rw [abs_neg, abs_of_nonneg (mag_nonneg _)]
  · rw [abs_of_nonneg (mag_nonneg _)]

theorem toSingle_fin (q : ℚ) : toSingle (.fin q) =
    if |q| < limit then .fin (sg q) else if q < 0 then .ninf else .pinf := by
  unfold toSingle
  dsimp only
  by_cases h : limit ≤ |q|
  · rw [if_pos ((mag_overflow (abs_nonneg q)).2 h), if_neg (not_lt.2 h)]
  · rw [if_neg (fun h' => h ((mag_overflow (abs_nonneg q)).1 h')), if_pos (not_le.1 h)]
    rfl

theorem sg_lt {q : ℚ} (h : |q| < limit) : |sg q| < limit := by
  rw [abs_sg]
  by_contra hc
  push Not at hc
  have h1 := mag_mono (by unfold limit; norm_num) hc
  rw [mag_limit, mag_idem _ (abs_nonneg q)] at h1
  exact absurd ((mag_overflow (abs_nonneg q)).1 h1) (not_le.2 h)

/-- C130: the conversion to float32 has the properties that the history theorems (C36-C44) assume of it: it
keeps NaN, keeps the order, and leaves its own results alone. -/
theorem C130_is_single : History.IsSingle toSingle := by
  refine ⟨?_, ?_, ?_⟩
  · intro x
    cases x with
    | fin q => rw [toSingle_fin]; split_ifs <;> simp
    | _ => simp [toSingle]
  · intro a b ha hb h
    cases a with
    | nan => exact absurd rfl ha
    | ninf => cases b <;> first | exact absurd rfl hb | rfl | skip
              rename_i q; rw [toSingle_fin]; split_ifs <;> rfl
    | pinf =>
      cases b with
      | nan => exact absurd rfl hb
      | pinf => rfl
      | ninf => exact absurd h (by decide)
      | fin q => simp [PyFloat.lt] at h
    | fin p =>
      cases b with
      | nan => exact absurd rfl hb
      | ninf => simp [PyFloat.lt] at h
      | pinf => rw [toSingle_fin]; split_ifs <;> rfl
      | fin q =>
        have hpq : p ≤ q := by simpa [PyFloat.lt] using h
        rw [toSingle_fin, toSingle_fin]
        by_cases h1 : |q| < limit
        · rw [if_pos h1]
          by_cases h2 : |p| < limit
          · rw [if_pos h2]
            simpa [PyFloat.lt] using sg_mono hpq
          · rw [if_neg h2, if_pos]
            · rfl
            · by_contra hp
              push Not at hp h2
              rw [abs_of_nonneg hp] at h2
              rw [abs_lt] at h1
              linarith [h1.2]
        · rw [if_neg h1]
          by_cases hq : q < 0
          · rw [if_pos hq, if_neg, if_pos (by linarith)]
            · rfl
            · push Not at h1 ⊢
              rw [abs_of_neg hq] at h1
              rw [abs_of_neg (by linarith)]
              linarith
          · rw [if_neg hq]
            split_ifs <;> rfl
  · intro x
    cases x with
    | fin q =>
      rw [toSingle_fin]
      by_cases h : |q| < limit
      · rw [if_pos h, toSingle_fin, if_pos (sg_lt h), sg_idem]
      · rw [if_neg h]; split_ifs <;> rfl
    | _ => rfl

example : toSingle (.fin (1 / 10)) = .fin (13421773 / 134217728) ∧ toSingle (.fin (1 + 1 / 2 ^ 24)) = .fin 1 ∧
    toSingle (.fin (1 + 3 / 2 ^ 24)) = .fin (1 + 1 / 2 ^ 22) ∧ toSingle (.fin (10 ^ 39)) = .pinf ∧
    toSingle (.fin (-3 / 2 ^ 150)) = .fin (-1 / 2 ^ 148) := by decide +kernel

/-- C130: a number is kept as the nearest one of the format float32. -/
theorem C130_nearest (x y : ℚ) (h : toSingle (.fin x) = .fin y) :
    Float32 y ∧ ∀ z, Float32 z → |x - y| ≤ |x - z| := by
  rw [toSingle_fin] at h
  split_ifs at h with h1
  cases h
  exact ⟨sg_float32 (lt_trans (sg_lt h1) (by unfold limit; norm_num)), fun z hz => sg_nearest x hz⟩

example : Float32 (13421773 / 134217728) := (C130_nearest (1 / 10) _ (by decide +kernel)).1

/-- C130: if two numbers of the format are equally near, the one that is an even multiple of their distance is kept. -/
theorem C130_tie (x y z : ℚ) (h : toSingle (.fin x) = .fin y) (hz : Float32 z) (hne : z ≠ y)
    (ht : |x - z| = |x - y|) : ∃ k : ℤ, y = 2 * k * (z - y) := by
  rw [toSingle_fin] at h
  split_ifs at h with h1
  cases h
  rcases lt_or_ge x 0 with hx | hx
  · rw [sg_neg hx] at *
    obtain ⟨k, hk⟩ := mag_tie (a := -x) (by linarith) (float32_neg hz) (fun h => hne (by rw [← h]; ring)) (by
      rw [← abs_neg, show -(-x - -z) = x - z by ring, ht, ← abs_neg]; congr 1; ring)
    exact ⟨k, by linarith⟩
  · rw [sg_nonneg hx] at *
    exact mag_tie hx hz hne ht

example := C130_tie (1 + 1 / 2 ^ 24) 1 (1 + 1 / 2 ^ 23) (by decide +kernel)
  ⟨2 ^ 23 + 1, -23, by norm_num, by norm_num, by norm_num, by norm_num⟩ (by norm_num) (by decide +kernel)

/-- C130: numbers of the format are kept as they are. -/
theorem C130_exact (y : ℚ) (h : Float32 y) : toSingle (.fin y) = .fin y := by
  have hd := sg_nearest y h
  rw [sub_self, abs_zero] at hd
  have hsg : sg y = y := (sub_eq_zero.1 (abs_nonpos_iff.1 hd)).symm
  rw [toSingle_fin, if_pos, hsg]
  obtain ⟨m, e, hm, -, he, rfl⟩ := h
  have hm' : |(m : ℚ)| ≤ 2 ^ 24 - 1 := by
    have : |m| ≤ 2 ^ 24 - 1 := by omega
    exact_mod_cast this
  have hpos : (0 : ℚ) < 2 ^ e := by positivity
  rw [abs_mul, abs_of_pos hpos]
  have h1 : (2 : ℚ) ^ e ≤ 2 ^ (104 : ℤ) := zpow_le_zpow_right₀ (by norm_num) he
  calc |(m : ℚ)| * 2 ^ e ≤ (2 ^ 24 - 1) * 2 ^ (104 : ℤ) := by gcongr
    _ < limit := by unfold limit; norm_num

example := C130_exact (3 / 8) ⟨3, -3, by norm_num, by norm_num, by norm_num, by norm_num⟩

/-- C130: exactly the numbers from `2^128 - 2^103` (about 3.4e38) on become infinite. -/
theorem C130_infinite (x : ℚ) :
    (toSingle (.fin x) = .pinf ↔ 2 ^ 128 - 2 ^ 103 ≤ x) ∧
    (toSingle (.fin x) = .ninf ↔ x ≤ -(2 ^ 128 - 2 ^ 103)) := by
  have hl : (0 : ℚ) < limit := by unfold limit; norm_num
  rw [toSingle_fin]
  change (_ ↔ limit ≤ x) ∧ (_ ↔ x ≤ -limit)
  by_cases h : |x| < limit
  · rw [if_pos h]
    rw [abs_lt] at h
    exact ⟨⟨fun h' => by simp at h', fun h' => by linarith⟩, ⟨fun h' => by simp at h', fun h' => by linarith⟩⟩
  · rw [if_neg h]
    push Not at h
    by_cases hx : x < 0
    · rw [if_pos hx]
      rw [abs_of_neg hx] at h
      exact ⟨⟨fun h' => by simp at h', fun h' => by linarith⟩, ⟨fun _ => by linarith, fun _ => rfl⟩⟩
    · rw [if_neg hx]
      push Not at hx
      rw [abs_of_nonneg hx] at h
      exact ⟨⟨fun _ => h, fun _ => rfl⟩, ⟨fun h' => by simp at h', fun h' => by linarith⟩⟩

example : toSingle (.fin (2 ^ 128 - 2 ^ 103)) = .pinf ∧ toSingle (.fin (2 ^ 128 - 2 ^ 103 - 1)) = .fin (2 ^ 128 - 2 ^ 104) := by
  decide +kernel

theorem mag_rel {a : ℚ} (h : 1 / 2 ^ 126 ≤ a) : |mag a - a| ≤ a / 2 ^ 24 := by
  have ha : 0 < a := lt_of_lt_of_le (by positivity) h
  obtain ⟨h1, h2⟩ := log2_bounds ha
  refine (mag_err ha.le).trans ?_
  have hlog : -126 ≤ Int.log 2 a := by
    have : (2 : ℚ) ^ (-126 : ℤ) < 2 ^ (Int.log 2 a + 1) := by
      refine lt_of_le_of_lt ?_ h2
      rw [zpow_neg]; simpa using h
    have := (zpow_lt_zpow_iff_right₀ (by norm_num : (1 : ℚ) < 2)).1 this
    omega
  rw [le_div_iff₀ (by positivity)]
  refine le_trans ?_ h1
  rw [← zpow_natCast, ← zpow_add₀ (by norm_num)]
  apply zpow_le_zpow_right₀ (by norm_num)
  unfold lastPlace; push_cast; omega

theorem mag_abs {a : ℚ} (h0 : 0 ≤ a) (h : a < 1 / 2 ^ 126) : |mag a - a| ≤ 1 / 2 ^ 150 := by
  rcases h0.eq_or_lt with rfl | ha
  · rw [mag_zero]; simp
  obtain ⟨h1, -⟩ := log2_bounds ha
  refine (mag_err ha.le).trans ?_
  have hlog : Int.log 2 a < -126 := by
    have : (2 : ℚ) ^ Int.log 2 a < 2 ^ (-126 : ℤ) := by
      refine lt_of_le_of_lt h1 ?_
      rw [zpow_neg]; simpa using h
    exact (zpow_lt_zpow_iff_right₀ (by norm_num : (1 : ℚ) < 2)).1 this
  have : lastPlace a = -149 := by unfold lastPlace; omega
  rw [this]
  norm_num

/-- How well `y` tells `x`: to one part in `2^24` (less than 6e-8), and for numbers below `2^-126` (about 1.2e-38)
within `2^-150`. -/
def Tells (x : ℚ) (y : PyFloat) : Prop :=
  ∃ q, y = .fin q ∧ |q - x| ≤ max (|x| / 2 ^ 24) (1 / 2 ^ 150) ∧ (1 / 2 ^ 126 ≤ |x| → |q - x| ≤ |x| / 2 ^ 24)

theorem sg_err (x : ℚ) : |sg x - x| = abs (mag |x| - |x|) := by
  rcases lt_or_ge x 0 with h | h
  · rw [sg_neg h, abs_of_neg h, ← abs_neg]; congr 1; ring
  · rw [sg_nonneg h, abs_of_nonneg h]

/-- C130: a number below the overflow threshold is kept with 24 significant bits. -/
theorem C130_accuracy (x : ℚ) (h : |x| < 2 ^ 128 - 2 ^ 103) : Tells x (toSingle (.fin x)) := by
  refine ⟨sg x, by rw [toSingle_fin]; exact if_pos h, ?_, ?_⟩
  · rw [sg_err]
    rcases le_or_gt (1 / 2 ^ 126) |x| with h1 | h1
    · exact (mag_rel h1).trans (le_max_left _ _)
    · exact (mag_abs (abs_nonneg x) h1).trans (le_max_right _ _)
  · intro h1
    rw [sg_err]
    exact mag_rel h1

example : Tells (1 / 10) (.fin (13421773 / 134217728)) := by
  have := C130_accuracy (1 / 10) (by rw [abs_of_pos] <;> norm_num)
  rwa [show toSingle (.fin (1 / 10)) = .fin (13421773 / 134217728) by decide +kernel] at this

/-! ## The records of the history -/

open History (Op Ind Row Chooser Normal records run init rowsAdded stored Storable)

/-- The score and the values of an individual as exact numbers. -/
structure Exact where
  score : ℚ
  values : List ℚ

/-- The individual with these numbers and this hash. -/
def Exact.ind (x : Exact) (key : Int) : Ind := ⟨.fin x.score, x.values.map .fin, some key⟩

/-- Everything is below the overflow threshold of float32, about 3.4e38. -/
def Exact.InRange (x : Exact) : Prop := |x.score| < 2 ^ 128 - 2 ^ 103 ∧ ∀ v ∈ x.values, |v| < 2 ^ 128 - 2 ^ 103

/-- The record tells the score and every value, in order. -/
def Recorded (x : Exact) (r : Row) : Prop := Tells x.score r.sse ∧ List.Forall₂ Tells x.values r.values

/-- What happens to a history in a normal run: an individual with a score is added (the other arguments of `add`
are its hash, `neverInPop` and the choice of a victim), or one leaves the population. -/
inductive Event where
  | add (x : Exact) (key : Int) (neverInPop : Bool) (choose : Finset Nat → Option Nat)
  | leave (i : Ind)

def Event.op : Event → Op
  | .add x key nip ch => .add (x.ind key) nip ch
  | .leave i => .notInPop i

/-- The individual an event adds. -/
def Event.added : Event → Option Exact
  | .add x _ _ _ => some x
  | .leave _ => none

theorem tells_recorded (x : Exact) (key : Int) (h : x.InRange) : Recorded x (stored toSingle (x.ind key)) := by
  refine ⟨C130_accuracy _ h.1, ?_⟩
  unfold stored Exact.ind
  dsimp only
  rw [List.map_map, List.forall₂_map_right_iff, List.forall₂_same]
  intro v hv
  exact C130_accuracy v (h.2 v hv)

theorem recorded_finite {x : Exact} {r : Row} (h : Recorded x r) : r.finite = true := by
  obtain ⟨⟨q, hq, -⟩, h2⟩ := h
  unfold Row.finite
  rw [Bool.and_eq_true]
  refine ⟨by rw [hq]; rfl, ?_⟩
  revert h2
  generalize x.values = us
  generalize r.values = vs
  intro h2
  induction h2 with
  | nil => rfl
  | cons h _ ih =>
    obtain ⟨q, rfl, -⟩ := h
    rw [List.all_cons, ih]
    rfl

/-- C130: as long as no more individuals than the capacity are added, all with scores and values below 3.4e38, the
history holds exactly one record for each of them, which tells its score and values to 24 bits. -/
theorem C130_records (n : Nat) (hn : 0 < n) (evs : List Event)
    (hin : ∀ x key nip ch, Event.add x key nip ch ∈ evs → x.InRange ∧ Chooser ch)
    (hlen : (evs.filterMap Event.added).length ≤ n) :
    ∃ rs, (records (run toSingle (init n) (evs.map Event.op))).Perm rs ∧
      List.Forall₂ Recorded (evs.filterMap Event.added) rs := by
  have hf2 : List.Forall₂ Recorded (evs.filterMap Event.added) (rowsAdded toSingle (evs.map Event.op)) := by
    clear hlen
    induction evs with
    | nil => exact .nil
    | cons ev evs ih =>
      have ih := ih fun x key nip ch hm => hin x key nip ch (List.mem_cons_of_mem _ hm)
      cases ev with
      | add x key nip ch =>
        have := tells_recorded x key (hin x key nip ch List.mem_cons_self).1
        exact .cons this ih
      | leave i => exact ih
  refine ⟨rowsAdded toSingle (evs.map Event.op), ?_, hf2⟩
  refine History.C37_exactly_the_added toSingle C130_is_single n hn _ ?_ (by rw [← hf2.length_eq]; exact hlen)
  intro op hop
  obtain ⟨ev, hev, rfl⟩ := List.mem_map.1 hop
  cases ev with
  | leave i => trivial
  | add x key nip ch =>
    obtain ⟨h1, h2⟩ := hin x key nip ch hev
    exact ⟨fun _ => ⟨recorded_finite (tells_recorded x key h1), rfl⟩, h2⟩

/-- How far a record may be from a number of this size. -/
def accuracy (x : ℚ) : ℚ := max (|x| / 2 ^ 24) (1 / 2 ^ 150)

/-- C130: of two records, the one that comes first in the history is of an individual whose score is not higher than
that of the other by more than the accuracy of the records. -/
theorem C130_order (n : Nat) (h : History.Hist) (hr : History.ReachNP toSingle n h) (x y : Exact) (a b : Row)
    (l₁ l₂ l₃ : List Row) (hrec : records h = l₁ ++ a :: l₂ ++ b :: l₃) (hx : Recorded x a) (hy : Recorded y b) :
    x.score ≤ y.score + accuracy x.score + accuracy y.score := by
  have hs := (History.C36_bounded_sorted_nopurge toSingle C130_is_single n h hr).2.2.2
  rw [hrec, List.pairwise_append] at hs
  have hab := hs.2.2 a (by simp) b (by simp)
  obtain ⟨⟨p, hp, hp2, -⟩, -⟩ := hx
  obtain ⟨⟨q, hq, hq2, -⟩, -⟩ := hy
  rw [hp, hq] at hab
  have hpq : p ≤ q := by simpa [PyFloat.lt] using hab
  have h1 := (abs_le.1 hp2).1
  have h2 := (abs_le.1 hq2).2
  unfold accuracy
  linarith

namespace Demo

/-- Individuals with the scores 1/10, 3 + 2^-30 and 2, the second one outside the population. -/
def evs : List Event :=
  [.add ⟨1 / 10, [1 / 3, 7]⟩ 1 false History.highest, .add ⟨3 + 1 / 2 ^ 30, [1 / 10 ^ 20, 0]⟩ 2 true History.highest,
    .leave (Exact.ind ⟨1 / 10, [1 / 3, 7]⟩ 1), .add ⟨2, [-5, 1 / 10]⟩ 3 false History.highest]

theorem evs_in : ∀ x key nip ch, Event.add x key nip ch ∈ evs → x.InRange ∧ Chooser ch := by
  intro x key nip ch h
  simp only [evs, List.mem_cons, Event.add.injEq, reduceCtorEq, List.not_mem_nil, or_false, false_or] at h
  rcases h with ⟨rfl, rfl, rfl, rfl⟩ | ⟨rfl, rfl, rfl, rfl⟩ | ⟨rfl, rfl, rfl, rfl⟩ <;>
    exact ⟨by unfold Exact.InRange; decide +kernel, History.highest_chooser⟩

example := C130_records 4 (by norm_num) evs evs_in (by decide)

example : (records (run toSingle (init 4) (evs.map Event.op))).map (·.sse) =
    [.fin (13421773 / 134217728), .fin 2, .fin 3] := by decide +kernel

/-- The state after the individuals of scores 3 + 2^-30 and 1/10 were added. -/
def two : History.Hist := run toSingle (init 4)
  [.add (Exact.ind ⟨3 + 1 / 2 ^ 30, [1]⟩ 1) false History.highest, .add (Exact.ind ⟨1 / 10, [2]⟩ 2) false History.highest]

theorem two_reach : History.ReachNP toSingle 4 two := by
  have h : ∀ x : Exact, ∀ key, x.InRange → Storable toSingle (x.ind key) := fun x key h =>
    ⟨recorded_finite (tells_recorded x key h), rfl⟩
  refine .step _ (.add _ _ _) (.step _ (.add _ _ _) (.init (by norm_num))
    ⟨fun _ => h _ _ (by unfold Exact.InRange; decide +kernel), History.highest_chooser, by decide +kernel⟩ nofun)
    ⟨fun _ => h _ _ (by unfold Exact.InRange; decide +kernel), History.highest_chooser, by decide +kernel⟩ nofun

example := C130_order 4 two two_reach ⟨1 / 10, [2]⟩ ⟨3 + 1 / 2 ^ 30, [1]⟩ _ _ [] [] []
  (show records two = [stored toSingle (Exact.ind ⟨1 / 10, [2]⟩ 2), stored toSingle (Exact.ind ⟨3 + 1 / 2 ^ 30, [1]⟩ 1)]
    by decide +kernel)
  (tells_recorded _ _ (by unfold Exact.InRange; decide +kernel))
  (tells_recorded _ _ (by unfold Exact.InRange; decide +kernel))

end Demo

/-- C130: scores that differ by less than the accuracy may be recorded as equal, and then the records need not be in
the order of the scores: here the better individual comes last. -/
theorem C130_order_not_exact :
    ∃ x y : Exact, x.InRange ∧ y.InRange ∧ x.score < y.score ∧ ∃ ops : List Op,
      ops = [.add (x.ind 1) false History.highest, .add (y.ind 2) false History.highest].reverse ∧
      records (run toSingle (init 4) ops) = [stored toSingle (y.ind 2), stored toSingle (x.ind 1)] ∧
      (stored toSingle (y.ind 2)).sse = (stored toSingle (x.ind 1)).sse ∧
      stored toSingle (y.ind 2) ≠ stored toSingle (x.ind 1) :=
  ⟨⟨1 + 1 / 2 ^ 30, [1]⟩, ⟨1 + 1 / 2 ^ 26, [2]⟩, by unfold Exact.InRange; decide +kernel,
    by unfold Exact.InRange; decide +kernel, by decide +kernel, _, rfl, by decide +kernel, by decide +kernel,
    by decide +kernel⟩

end Single
end Ade
