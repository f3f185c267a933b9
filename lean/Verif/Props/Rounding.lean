import Verif.Model.Rounding
import Verif.Props.Search
import Mathlib.Data.Nat.Log
import Mathlib.Tactic.Linarith
import Mathlib.Tactic.Positivity
import Mathlib.Tactic.NormNum
import Mathlib.Tactic.FieldSimp
import Mathlib.Tactic.Ring

/-!
# Property C105: bounds are respected in spite of rounding
-/

set_option autoImplicit false

namespace Ade
namespace Rounding

/-! ## limit -/

section
variable {α : Type} [LinearOrder α]

/-- C105: limited values are within the bounds, whatever the reflected values are computed to. -/
theorem C105_limit_within (rlo rhi : α → α) (lo hi v : α) (h : lo ≤ hi) :
    lo ≤ limit1 rlo rhi lo hi v ∧ limit1 rlo rhi lo hi v ≤ hi := by
  unfold limit1
  exact ⟨le_min (le_max_right _ _) h, min_le_right _ _⟩

example := C105_limit_within (fun v : ℤ => 2 * 0 - v + 1) (fun v => 2 * 10 - v - 100) 0 10 12 (by decide)

/-- C105: values within the bounds are not changed. -/
theorem C105_limit_keeps (rlo rhi : α → α) (lo hi v : α) (h1 : lo ≤ v) (h2 : v ≤ hi) : limit1 rlo rhi lo hi v = v := by
  unfold limit1
  simp only [if_neg (not_lt.2 h1), gt_iff_lt, if_neg (not_lt.2 h2), max_eq_left h1, min_eq_left h2]

example := C105_limit_keeps (fun v : ℤ => 2 * 0 - v + 1) (fun v => 2 * 10 - v - 100) 0 10 7 (by decide) (by decide)

/-- C105: a value beyond a bound becomes its reflection at that bound, as computed, if that is within the bounds. -/
theorem C105_limit_reflects (rlo rhi : α → α) (lo hi v : α) (h : lo ≤ hi) :
    (v < lo → lo ≤ rlo v → rlo v ≤ hi → limit1 rlo rhi lo hi v = rlo v) ∧
    (hi < v → lo ≤ rhi v → rhi v ≤ hi → limit1 rlo rhi lo hi v = rhi v) := by
  unfold limit1
  constructor
  · intro hv h1 h2
    simp only [if_pos hv, gt_iff_lt, if_neg (not_lt.2 h2), max_eq_left h1, min_eq_left h2]
  · intro hv h1 h2
    simp only [if_neg (not_lt.2 (h.trans hv.le)), gt_iff_lt, if_pos hv, max_eq_left h1, min_eq_left h2]

example := C105_limit_reflects (fun v : ℤ => 2 * 0 - v + 1) (fun v => 2 * 10 - v - 1) 0 10 12 (by decide)

/-- Values within bounds. -/
def Within (bs : List (Bound α)) (vs : List α) : Prop := List.Forall₂ (fun b v => b.lo ≤ v ∧ v ≤ b.hi) bs vs

theorem limit_within (bs : List (Bound α)) (hb : ∀ b ∈ bs, b.lo ≤ b.hi) (vs : List α) (hl : vs.length = bs.length) :
    Within bs (limit bs vs) := by
  induction bs generalizing vs with
  | nil => cases vs <;> simp [limit, Within]
  | cons b bs ih =>
    cases vs with
    | nil => simp at hl
    | cons v vs =>
      refine List.Forall₂.cons (C105_limit_within b.rlo b.rhi b.lo b.hi v (hb b List.mem_cons_self)) ?_
      exact ih (fun x hx => hb x (List.mem_cons_of_mem _ hx)) vs (by simpa using hl)

/-- C105: members are within the bounds at any time in any execution of a run if the initial members are, whatever the
arithmetic of mutation (`raw` gives the unlimited values as computed) and of reflection, and for any evaluation. -/
theorem C105_members_within {I : Type} (values : I → List α) (bs : List (Bound α)) (hb : ∀ b ∈ bs, b.lo ≤ b.hi)
    (P : DESystem.Params I) (n : ℕ)
    (hidx : ∀ m, (P.req m).kt < n ∧ (P.req m).kb < n ∧ (P.req m).k0 < n ∧ (P.req m).k1 < n)
    (raw : ℕ → I → I → I → I → List α) (hraw : ∀ j t b x y, (raw j t b x y).length = bs.length)
    (htrial : ∀ j t b x y i, (P.req j).trial t b x y = .evaluated i → values i = limit bs (raw j t b x y))
    (pop₀ : ℕ → I) (h₀ : ∀ k, k < n → Within bs (values (pop₀ k))) (s : DESystem.Sys I)
    (hs : DESystem.Reachable P pop₀ s) (k : ℕ) (hk : k < n) : Within bs (values (s.pop k)) := by
  refine DESystem.member_invariant P n hidx (fun i => Within bs (values i)) ?_ pop₀ h₀ s hs k hk
  intro j t b x y i _ _ _ _ hi
  rw [htrial j t b x y i hi]
  exact limit_within bs hb _ (hraw j t b x y)

end

/-! ## Rounding to nearest -/

theorem nearest_le {p : ℕ} {x y z : ℚ} (h : Nearest p x y) (hz : Repr p z) (hxz : x ≤ z) : y ≤ z := by
  by_contra hc
  push Not at hc
  have := h.2 z hz
  rw [abs_of_nonpos (by linarith), abs_of_nonpos (by linarith)] at this
  linarith

theorem le_nearest {p : ℕ} {x y z : ℚ} (h : Nearest p x y) (hz : Repr p z) (hzx : z ≤ x) : z ≤ y := by
  by_contra hc
  push Not at hc
  have := h.2 z hz
  rw [abs_of_nonneg (by linarith), abs_of_nonneg (by linarith)] at this
  linarith

theorem repr_zero (p : ℕ) : Repr p 0 := ⟨0, 0, by simp, by simp⟩

/-- Each positive float is `M * 2 ^ E` with `2 ^ (p - 1) < M ≤ 2 ^ p`. -/
theorem repr_normal {p : ℕ} {s : ℚ} (hs : Repr p s) (h0 : 0 < s) :
    ∃ (M : ℕ) (E : ℤ), 2 ^ p < 2 * M ∧ M ≤ 2 ^ p ∧ s = M * (2 : ℚ) ^ E := by
  obtain ⟨m, e, hm, rfl⟩ := hs
  have hpos : (0 : ℚ) < (2 : ℚ) ^ e := zpow_pos (by norm_num) _
  have hm0 : 0 < m := by
    have : (0 : ℚ) < m := by
      by_contra hc
      push Not at hc
      have := mul_nonpos_of_nonpos_of_nonneg hc hpos.le
      linarith
    exact_mod_cast this
  lift m to ℕ using hm0.le
  have hm0' : 0 < m := by exact_mod_cast hm0
  have hmp : m < 2 ^ p := by
    have : ((m : ℤ)) < 2 ^ p := by simpa using hm
    exact_mod_cast this
  have hc1 : m ≤ 2 ^ Nat.clog 2 m := Nat.le_pow_clog (by norm_num) m
  have hcp : Nat.clog 2 m ≤ p := (Nat.clog_le_iff_le_pow (by norm_num)).2 hmp.le
  obtain ⟨k, hk⟩ := Nat.exists_eq_add_of_le hcp
  refine ⟨m * 2 ^ k, e - k, ?_, ?_, ?_⟩
  · rcases Nat.eq_or_lt_of_le (Nat.succ_le_of_lt hm0') with h1 | h1
    · have : m = 1 := h1.symm
      subst this
      rw [Nat.clog_one_right, Nat.zero_add] at hk
      rw [hk]
      have : 0 < 2 ^ k := by positivity
      omega
    · have h2 := Nat.pow_pred_clog_lt_self (b := 2) (by norm_num) (x := m) h1
      have hcpos : 0 < Nat.clog 2 m := Nat.clog_pos (by norm_num) h1
      obtain ⟨c, hc⟩ : ∃ c, Nat.clog 2 m = c + 1 := ⟨_, (Nat.succ_pred_eq_of_pos hcpos).symm⟩
      rw [hc] at h2 hk
      simp only [Nat.pred_succ] at h2
      rw [hk, pow_add, pow_succ]
      have : 0 < 2 ^ k := by positivity
      nlinarith
  · rw [hk, pow_add]
    exact Nat.mul_le_mul_right _ hc1
  · push_cast
    rw [mul_assoc, ← zpow_natCast, ← zpow_add₀ (by norm_num)]
    congr 2
    ring

/-- Nothing lies between `(M - 1) * 2 ^ E` and `M * 2 ^ E`. -/
theorem repr_gap {p M : ℕ} {E : ℤ} (hM : 2 ^ p < 2 * M) {w : ℚ} (hw : Repr p w)
    (h : w < M * (2 : ℚ) ^ E) : w ≤ (M - 1) * (2 : ℚ) ^ E := by
  by_contra hc
  push Not at hc
  obtain ⟨m, e, hm, rfl⟩ := hw
  have hE : (0 : ℚ) < (2 : ℚ) ^ E := zpow_pos (by norm_num) _
  have hMpos : 0 < M := by
    have : 0 < 2 ^ p := by positivity
    omega
  rcases le_total E e with hle | hle
  · obtain ⟨k, hk⟩ := Int.le.dest hle
    have e1 : (m : ℚ) * (2 : ℚ) ^ e = ((m * 2 ^ k : ℤ) : ℚ) * (2 : ℚ) ^ E := by
      rw [← hk, zpow_add₀ (by norm_num), zpow_natCast]
      push_cast
      ring
    rw [e1] at h hc
    have h1 := lt_of_mul_lt_mul_right h hE.le
    have h2 := lt_of_mul_lt_mul_right hc hE.le
    have h1' : m * 2 ^ k < (M : ℤ) := by exact_mod_cast h1
    have h2' : (M : ℤ) - 1 < m * 2 ^ k := by exact_mod_cast h2
    omega
  · rcases hle.eq_or_lt with rfl | hlt
    · have h1 := lt_of_mul_lt_mul_right h hE.le
      have h2 := lt_of_mul_lt_mul_right hc hE.le
      have h1' : m < (M : ℤ) := by exact_mod_cast h1
      have h2' : (M : ℤ) - 1 < m := by exact_mod_cast h2
      omega
    · obtain ⟨k, hk⟩ : ∃ k : ℕ, E = e + (k + 1 : ℕ) := by
        obtain ⟨k, hk⟩ := Int.le.dest (Int.add_one_le_of_lt hlt)
        exact ⟨k, by push_cast; omega⟩
      have he : (0 : ℚ) < (2 : ℚ) ^ e := zpow_pos (by norm_num) _
      have e1 : ((M : ℚ) - 1) * (2 : ℚ) ^ E = (((M : ℤ) - 1) * 2 ^ (k + 1) : ℤ) * (2 : ℚ) ^ e := by
        rw [hk, zpow_add₀ (by norm_num), zpow_natCast]
        push_cast
        ring
      rw [e1] at hc
      have h2 := lt_of_mul_lt_mul_right hc he.le
      have h2' : ((M : ℤ) - 1) * 2 ^ (k + 1) < m := by exact_mod_cast h2
      have hm' : m < 2 ^ p := lt_of_le_of_lt (le_abs_self m) hm
      have hM' : (2 : ℤ) ^ p < 2 * M := by exact_mod_cast hM
      have h1k : (1 : ℤ) ≤ 2 ^ k := one_le_pow₀ (by norm_num)
      have : ((M : ℤ) - 1) * 2 ≤ ((M : ℤ) - 1) * 2 ^ (k + 1) := by
        rw [pow_succ]
        have hM1 : (0 : ℤ) ≤ (M : ℤ) - 1 := by omega
        nlinarith [mul_nonneg hM1 (by omega : (0 : ℤ) ≤ 2 ^ k - 1)]
      omega

theorem repr_pred {p M : ℕ} {E : ℤ} (hM : M ≤ 2 ^ p) (hM0 : 0 < M) : Repr p ((M - 1) * (2 : ℚ) ^ E) := by
  refine ⟨(M : ℤ) - 1, E, ?_, by push_cast; rfl⟩
  have h1 : (M : ℤ) ≤ 2 ^ p := by exact_mod_cast hM
  have h2 : (0 : ℤ) < M := by exact_mod_cast hM0
  rw [abs_of_nonneg (by omega)]
  omega

/-- C105: values scaled from the unit cube are within the bounds, for floats of any precision, any rule for ties and any
normalized value below one. -/
theorem C105_fromUnity_within (p : ℕ) (lo hi u v : ℚ) (hlo : Repr p lo) (hhi : Repr p hi) (hb : lo ≤ hi)
    (hu : Repr p u) (h0 : 0 ≤ u) (h1 : u < 1) (h : FromUnity p lo hi u v) : lo ≤ v ∧ v ≤ hi := by
  obtain ⟨s, w, hs, hw, hv⟩ := h
  have hs0 : 0 ≤ s := le_nearest hs (repr_zero p) (by linarith)
  have hw0 : 0 ≤ w := le_nearest hw (repr_zero p) (mul_nonneg hs0 h0)
  refine ⟨le_nearest hv hlo (by linarith), nearest_le hv hhi ?_⟩
  suffices hwd : w ≤ hi - lo by linarith
  rcases le_or_gt s (hi - lo) with hsd | hsd
  · refine le_trans (nearest_le hw hs.1 ?_) hsd
    nlinarith
  · have hspos : 0 < s := lt_of_le_of_lt (by linarith) hsd
    obtain ⟨M, E, hM1, hM2, hsM⟩ := repr_normal hs.1 hspos
    have hE : (0 : ℚ) < (2 : ℚ) ^ E := zpow_pos (by norm_num) _
    have hM0 : 0 < M := by
      have : 0 < 2 ^ p := by positivity
      omega
    have hz := repr_pred (E := E) hM2 hM0
    have hzd : (M - 1) * (2 : ℚ) ^ E ≤ hi - lo := by
      by_contra hc
      push Not at hc
      have := nearest_le hs hz hc.le
      rw [hsM] at this
      nlinarith
    refine le_trans ?_ hzd
    by_contra hc
    push Not at hc
    have hws : s ≤ w := by
      by_contra hlt
      push Not at hlt
      rw [hsM] at hlt
      exact absurd (repr_gap hM1 hw.1 hlt) (not_le.2 hc)
    -- `u` is at most one minus an ulp
    have hu1 : u ≤ 1 - (2 : ℚ) ^ (-(p : ℤ)) := by
      have hone : ((2 ^ p : ℕ) : ℚ) * (2 : ℚ) ^ (-(p : ℤ)) = 1 := by
        push_cast
        rw [← zpow_natCast, ← zpow_add₀ (by norm_num)]
        simp
      have := repr_gap (p := p) (M := 2 ^ p) (E := -(p : ℤ)) (by have : 0 < 2 ^ p := by positivity
                                                                 omega) hu (by rw [hone]; exact h1)
      rw [sub_mul, hone] at this
      linarith
    have hsu : s * u ≤ s - M * (2 : ℚ) ^ E * (2 : ℚ) ^ (-(p : ℤ)) := by
      have := mul_le_mul_of_nonneg_left hu1 hs0
      rw [mul_sub, mul_one] at this
      rw [hsM] at this ⊢
      exact this
    have hbig : (2 : ℚ) ^ E < 2 * (M * (2 : ℚ) ^ E * (2 : ℚ) ^ (-(p : ℤ))) := by
      have hp : (0 : ℚ) < (2 : ℚ) ^ (-(p : ℤ)) := zpow_pos (by norm_num) _
      have hM1' : ((2 : ℚ)) ^ p < 2 * M := by exact_mod_cast hM1
      have hone : ((2 : ℚ)) ^ p * (2 : ℚ) ^ (-(p : ℤ)) = 1 := by
        rw [← zpow_natCast, ← zpow_add₀ (by norm_num)]
        simp
      have : (1 : ℚ) < 2 * M * (2 : ℚ) ^ (-(p : ℤ)) := by
        rw [← hone]
        exact mul_lt_mul_of_pos_right hM1' hp
      nlinarith
    have hn := hw.2 _ hz
    rw [abs_of_nonpos (by nlinarith)] at hn
    rcases le_total ((M - 1) * (2 : ℚ) ^ E) (s * u) with h2 | h2
    · rw [abs_of_nonneg (by linarith)] at hn
      have hexp : ((M : ℚ) - 1) * (2 : ℚ) ^ E = M * (2 : ℚ) ^ E - (2 : ℚ) ^ E := by ring
      rw [hexp] at hn
      rw [← hsM] at hn
      rw [← hsM] at hbig hsu
      linarith
    · rw [abs_of_nonpos (by linarith)] at hn
      linarith

/-- C105: limiting does not change an initial value (`setup`, ade/population.py:783-792, limits after it has checked the
constraints), so the values that passed the constraints are the individual's. -/
theorem C105_initial_unchanged (p : ℕ) (rlo rhi : ℚ → ℚ) (lo hi u v : ℚ) (hlo : Repr p lo) (hhi : Repr p hi) (hb : lo ≤ hi)
    (hu : Repr p u) (h0 : 0 ≤ u) (h1 : u < 1) (h : FromUnity p lo hi u v) : limit1 rlo rhi lo hi v = v := by
  have := C105_fromUnity_within p lo hi u v hlo hhi hb hu h0 h1 h
  exact C105_limit_keeps rlo rhi lo hi v this.1 this.2

/-- C105: at exactly one, which a rounded random number may be, the upper bound can be exceeded: three-bit floats, bounds
`-4` and `3/2`, result 2. -/
theorem C105_at_one : Repr 3 (-4) ∧ Repr 3 (3 / 2) ∧ FromUnity 3 (-4) (3 / 2) 1 2 := by
  have r6 : Repr 3 6 := ⟨6, 0, by norm_num, by norm_num⟩
  have r2 : Repr 3 2 := ⟨2, 0, by norm_num, by norm_num⟩
  have exact_ : ∀ x : ℚ, Repr 3 x → Nearest 3 x x := fun x hx => ⟨hx, fun z _ => by simp⟩
  refine ⟨⟨-4, 0, by norm_num, by norm_num⟩, ⟨3, -1, by norm_num, by norm_num⟩, 6, 6, ⟨r6, ?_⟩, ?_, ?_⟩
  · intro z hz
    -- nothing between 5 and 6
    rcases lt_or_ge z 6 with h | h
    · have := repr_gap (p := 3) (M := 6) (E := 0) (by norm_num) hz (by norm_num; exact h)
      norm_num at this
      rw [abs_of_nonpos (by norm_num), abs_of_nonneg (by linarith)]
      linarith
    · rw [abs_of_nonpos (by norm_num), abs_of_nonpos (by linarith)]
      linarith
  · norm_num
    exact exact_ 6 r6
  · norm_num
    exact exact_ 2 r2

/-- Non-vacuity of C105_fromUnity_within: three-bit floats, bounds -4 and 3/2, normalized value 7/8; the scale is rounded up,
the result is the middle value 1. -/
theorem demo_rounding : Repr 3 (7 / 8) ∧ FromUnity 3 (-4) (3 / 2) (7 / 8) 1 := by
  have r5 : Repr 3 5 := ⟨5, 0, by norm_num, by norm_num⟩
  have r6 : Repr 3 6 := ⟨6, 0, by norm_num, by norm_num⟩
  refine ⟨⟨7, -3, by norm_num, by norm_num⟩, 6, 5, ⟨r6, ?_⟩, ⟨r5, ?_⟩, ⟨1, 0, by norm_num, by norm_num⟩, fun z _ => ?_⟩
  · intro z hz
    rcases lt_or_ge z 6 with h | h
    · have := repr_gap (p := 3) (M := 6) (E := 0) (by norm_num) hz (by norm_num; exact h)
      norm_num at this
      rw [abs_of_nonpos (by norm_num), abs_of_nonneg (by linarith)]
      linarith
    · rw [abs_of_nonpos (by norm_num), abs_of_nonpos (by linarith)]
      linarith
  · intro z hz
    rw [show (6 : ℚ) * (7 / 8) - 5 = 1 / 4 by norm_num, abs_of_nonneg (by norm_num)]
    rcases lt_or_ge z 6 with h | h
    · have := repr_gap (p := 3) (M := 6) (E := 0) (by norm_num) hz (by norm_num; exact h)
      norm_num at this
      rw [abs_of_nonneg (by linarith)]
      linarith
    · rw [abs_of_nonpos (by linarith)]
      linarith
  · norm_num

/-- Non-vacuity of C105_limit_within: reflection computed with an error that leaves the bounds again. -/
example : limit1 (fun v : ℤ => 2 * 0 - v + 1) (fun v => 2 * 10 - v - 100) 0 10 12 = 0 := by decide

/-- Values are integers; every challenger is far out of bounds and its reflections are badly rounded. -/
example := C105_members_within (α := ℤ) (I := List ℤ) id [⟨0, 10, fun v => -v + 1, fun v => 20 - v - 100⟩] (by decide)
  ⟨fun _ _ => true, false, fun _ => ⟨0, 1, 2, 3, fun t _ _ _ =>
    .evaluated (limit [⟨0, 10, fun v => -v + 1, fun v => 20 - v - 100⟩] [t.sum + 100])⟩⟩ 4
  (fun _ => by simp) (fun _ t _ _ _ => [t.sum + 100]) (fun _ _ _ _ _ => rfl)
  (fun _ _ _ _ _ _ h => by injection h with h; exact h.symm) (fun _ => [5])
  (fun _ _ => .cons (by decide) .nil) _ ⟨[.issue], rfl⟩ 2 (by decide)

example := C105_fromUnity_within 3 (-4) (3 / 2) (7 / 8) 1 ⟨-4, 0, by norm_num, by norm_num⟩
  ⟨3, -1, by norm_num, by norm_num⟩ (by norm_num) demo_rounding.1 (by norm_num) (by norm_num) demo_rounding.2

example := C105_initial_unchanged 3 (fun v => v) (fun v => v) (-4) (3 / 2) (7 / 8) 1 ⟨-4, 0, by norm_num, by norm_num⟩
  ⟨3, -1, by norm_num, by norm_num⟩ (by norm_num) demo_rounding.1 (by norm_num) (by norm_num) demo_rounding.2

end Rounding
end Ade
