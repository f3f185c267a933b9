import Verif.Model.FRounded
import Verif.Props.FManager
import Verif.Props.Rounding
import Mathlib.Data.Int.Log
import Mathlib.Data.Rat.Floor
import Mathlib.Data.List.Induction
import Mathlib.Algebra.Order.Archimedean.Basic

/-!
# Property C132: the mutation range in spite of rounding

`FManager` (ade/de.py:52-208) with products rounded to floats of `p ≥ 8` bits (53 for Python's floats), to nearest, with
any rule for ties.
-/

set_option autoImplicit false

namespace Ade
namespace FRounded

open FManager Rounding

/-! ## Rounding to nearest: relative error, existence -/

/-- A positive number lies between two neighbouring floats. -/
theorem bracket {p : ℕ} (hp : 1 ≤ p) {x : ℚ} (hx : 0 < x) :
    ∃ (M : ℕ) (E : ℤ), 2 ^ p < 2 * M ∧ M ≤ 2 ^ p ∧ ((M : ℚ) - 1) * 2 ^ E ≤ x ∧ x < M * 2 ^ E ∧
      (2 : ℚ) ^ E * 2 ^ (p - 1) ≤ x := by
  have h1 := Int.zpow_log_le_self (b := 2) (r := x) (by norm_num) hx
  have h2 := Int.lt_zpow_succ_log_self (b := 2) (by norm_num) x
  push_cast at h1 h2
  set L := Int.log 2 x
  obtain ⟨q, rfl⟩ : ∃ q, p = q + 1 := ⟨p - 1, by omega⟩
  have hE : (0 : ℚ) < 2 ^ (L - q) := by positivity
  have e1 : (2 : ℚ) ^ L = 2 ^ (L - q) * 2 ^ q := by
    rw [← zpow_natCast, ← zpow_add₀ (by norm_num)]; congr 1; ring
  have e2 : (2 : ℚ) ^ (L + 1) = 2 ^ (L - q) * 2 ^ (q + 1) := by
    rw [← zpow_natCast, ← zpow_add₀ (by norm_num)]; congr 1; push_cast; ring
  rw [e1] at h1
  rw [e2] at h2
  have f1 := Int.floor_le (x / 2 ^ (L - q))
  have f2 := Int.lt_floor_add_one (x / 2 ^ (L - q))
  have g1 : (2 : ℤ) ^ q ≤ ⌊x / 2 ^ (L - q)⌋ := by
    apply Int.le_floor.2
    rw [le_div_iff₀ hE]; push_cast; linarith
  have g2 : ⌊x / 2 ^ (L - q)⌋ < (2 : ℤ) ^ (q + 1) := by
    apply Int.floor_lt.2
    rw [div_lt_iff₀ hE]; push_cast; linarith
  have hq0 : (0 : ℤ) < 2 ^ q := by positivity
  obtain ⟨n, hn⟩ : ∃ n : ℕ, ⌊x / 2 ^ (L - q)⌋ = n := ⟨_, (Int.toNat_of_nonneg (by omega)).symm⟩
  rw [hn] at f1 f2 g1 g2
  have g1' : 2 ^ q ≤ n := by exact_mod_cast g1
  have g2' : n < 2 ^ (q + 1) := by exact_mod_cast g2
  refine ⟨n + 1, L - q, ?_, g2', ?_, ?_, ?_⟩
  · rw [pow_succ]; omega
  · rw [le_div_iff₀ hE] at f1; push_cast at f1 ⊢; linarith
  · rw [div_lt_iff₀ hE] at f2; push_cast at f2 ⊢; linarith
  · simpa using h1

/-- Rounding to nearest is off by at most a part in `2^(p-1)`. -/
theorem nearest_rel {p : ℕ} (hp : 1 ≤ p) {x y : ℚ} (hx : 0 < x) (h : Nearest p x y) :
    |x - y| * 2 ^ (p - 1) ≤ x := by
  obtain ⟨M, E, hM1, hM2, b1, b2, b3⟩ := bracket hp hx
  have hM0 : 0 < M := by have : 0 < 2 ^ p := by positivity
                         omega
  have h1 := h.2 _ (repr_pred (E := E) hM2 hM0)
  rw [abs_of_nonneg (a := x - (M - 1) * 2 ^ E) (by linarith)] at h1
  have h2 : |x - y| ≤ 2 ^ E := by linarith
  exact le_trans (mul_le_mul_of_nonneg_right h2 (by positivity)) b3

theorem repr_neg {p : ℕ} {x : ℚ} (h : Repr p x) : Repr p (-x) := by
  obtain ⟨m, e, hm, rfl⟩ := h
  exact ⟨-m, e, by rwa [abs_neg], by push_cast; ring⟩

theorem repr_top {p M : ℕ} {E : ℤ} (hp : 1 ≤ p) (hM : M ≤ 2 ^ p) : Repr p (M * (2 : ℚ) ^ E) := by
  rcases Nat.eq_or_lt_of_le hM with rfl | h
  · refine ⟨1, E + p, ?_, ?_⟩
    · have : (1 : ℤ) < 2 ^ p := one_lt_pow₀ (by norm_num) (by omega)
      simpa using this
    · rw [zpow_add₀ (by norm_num)]; push_cast; rw [zpow_natCast]; ring
  · refine ⟨M, E, ?_, by push_cast; rfl⟩
    rw [abs_of_nonneg (by positivity)]; exact_mod_cast h

/-- Every number can be rounded. -/
theorem nearest_exists {p : ℕ} (hp : 1 ≤ p) (x : ℚ) : ∃ y, Nearest p x y := by
  have pos : ∀ x : ℚ, 0 < x → ∃ y, Nearest p x y := by
    intro x hx
    obtain ⟨M, E, hM1, hM2, b1, b2, -⟩ := bracket hp hx
    have hM0 : 0 < M := by have : 0 < 2 ^ p := by positivity
                           omega
    have r1 := repr_pred (E := E) hM2 hM0
    have r2 := repr_top (E := E) hp hM2
    rcases le_total (x - (M - 1) * 2 ^ E) (M * 2 ^ E - x) with h | h
    · refine ⟨_, r1, fun z hz => ?_⟩
      rw [abs_of_nonneg (a := x - _) (by linarith)]
      rcases lt_or_ge z (M * 2 ^ E) with h' | h'
      · have := repr_gap hM1 hz h'
        rw [abs_of_nonneg (by linarith)]; linarith
      · rw [abs_of_nonpos (by linarith)]; linarith
    · refine ⟨_, r2, fun z hz => ?_⟩
      rw [abs_of_nonpos (a := x - _) (by linarith)]
      rcases lt_or_ge z (M * 2 ^ E) with h' | h'
      · have := repr_gap hM1 hz h'
        rw [abs_of_nonneg (by linarith)]; linarith
      · rw [abs_of_nonpos (by linarith)]; linarith
  rcases lt_trichotomy x 0 with h | rfl | h
  · obtain ⟨y, h1, h2⟩ := pos (-x) (by linarith)
    refine ⟨-y, repr_neg h1, fun z hz => ?_⟩
    have := h2 (-z) (repr_neg hz)
    rwa [show -x - y = -(x - -y) by ring, show -x - -z = -(x - z) by ring, abs_neg, abs_neg] at this
  · exact ⟨0, repr_zero p, fun z _ => by simp⟩
  · exact pos x h

/-! ## The products of the code -/

/-- `mul` is the machine's multiplication of floats of `p` bits. -/
def Mul (p : ℕ) (mul : ℚ → ℚ → ℚ) : Prop := ∀ x y, Nearest p (x * y) (mul x y)

/-- What the constants have to satisfy: scale-downs to nine tenths or less, scale-ups by a tenth or more. -/
structure Good (p : ℕ) (c : Consts ℚ) : Prop where
  bits : 8 ≤ p
  low0 : 0 < c.sLow
  low1 : c.sLow ≤ 9 / 10
  high0 : 0 < c.sHigh
  high1 : c.sHigh ≤ 9 / 10
  single0 : 0 < c.sSingle
  single1 : c.sSingle ≤ 9 / 10
  ratio : 1 ≤ c.ratio
  crit : 0 < c.crit
  upLow : 11 / 10 ≤ c.upLow
  upHigh : 11 / 10 ≤ c.upHigh
  upSingle : 11 / 10 ≤ c.upSingle

/-- A usable initial setting in floats. -/
def Initial (p : ℕ) (F : FVal ℚ) : Prop := Usable F ∧ Repr p F.lowest ∧ Repr p F.highest

section
variable {p : ℕ} {mul : ℚ → ℚ → ℚ}

theorem eps (hp : 8 ≤ p) {x y : ℚ} (hx : 0 < x) (h : Nearest p x y) : |x - y| ≤ x / 128 := by
  have h1 := nearest_rel (by omega) hx h
  have h2 : (128 : ℚ) ≤ 2 ^ (p - 1) := by
    have : (2 : ℚ) ^ 7 ≤ 2 ^ (p - 1) := pow_le_pow_right₀ (by norm_num) (by omega)
    norm_num at this ⊢; exact this
  rw [le_div_iff₀ (by norm_num)]
  exact le_trans (mul_le_mul_of_nonneg_left h2 (abs_nonneg _)) h1

theorem shrink (hp : 8 ≤ p) (hm : Mul p mul) {s x : ℚ} (hs0 : 0 < s) (hs : s ≤ 9 / 10) (hx : 0 < x) :
    0 < mul s x ∧ mul s x ≤ 10 / 11 * x := by
  have h := abs_le.1 (eps hp (mul_pos hs0 hx) (hm s x))
  have : 0 < s * x := mul_pos hs0 hx
  have h2 : s * x ≤ 9 / 10 * x := mul_le_mul_of_nonneg_right hs hx.le
  constructor <;> linarith

theorem grow (hp : 8 ≤ p) (hm : Mul p mul) {t x : ℚ} (ht : 11 / 10 ≤ t) (hx : 0 < x) :
    12 / 11 * x ≤ mul x t := by
  have h := abs_le.1 (eps hp (mul_pos hx (by linarith : 0 < t)) (hm x t))
  have h2 : x * (11 / 10) ≤ x * t := mul_le_mul_of_nonneg_left ht hx.le
  linarith

theorem keep (hm : Mul p mul) {r x : ℚ} (hr : 1 ≤ r) (hx : 0 < x) (hxr : Repr p x) : x ≤ mul r x :=
  le_nearest (hm r x) hxr (by nlinarith)

/-- Invariant: the current range against the original one, and that all are floats. -/
structure Inv (p : ℕ) (m : FM ℚ) : Prop where
  pos : 0 < m.F.lowest
  le : m.F.lowest ≤ m.F.highest
  lo : m.F.lowest ≤ m.origLo
  hi : m.F.highest ≤ m.origHi
  orig : m.origLo ≤ m.origHi
  r1 : Repr p m.F.lowest
  r2 : Repr p m.F.highest
  r3 : Repr p m.origLo
  r4 : Repr p m.origHi

theorem inv_init {c : Consts ℚ} {F : FVal ℚ} (h : Initial p F) (a : Bool) :
    Inv p (init c F a) ∧ (init c F a).F = F ∧ (init c F a).origLo = F.lowest ∧
      (init c F a).origHi = F.highest ∧ (init c F a).adaptive = a ∧ (init c F a).limited = false := by
  obtain ⟨h, r1, r2⟩ := h
  cases F with
  | range lo hi =>
    obtain ⟨h1, h2⟩ := h
    have : lo ≠ 0 := h1.ne'
    have e : init c (.range lo hi) a = ⟨.range lo hi, a, lo, hi, false⟩ := by simp [init, this]
    rw [e]
    exact ⟨⟨h1, h2, le_rfl, le_rfl, h2, r1, r2, r1, r2⟩, rfl, rfl, rfl, rfl, rfl⟩
  | single x => exact ⟨⟨h, le_rfl, le_rfl, le_rfl, le_rfl, r1, r2, r1, r2⟩, rfl, rfl, rfl, rfl, rfl⟩

/-- What one scale-down does. -/
inductive Down (mul : ℚ → ℚ → ℚ) (c : Consts ℚ) (m : FM ℚ) : FM ℚ → Prop where
  | off : m.adaptive = false → Down mul c m m
  | low (lo hi : ℚ) : m.adaptive = true → m.F = .range lo hi → c.crit < mul c.sLow lo →
      Down mul c m { m with F := .range (mul c.sLow lo) hi }
  | one (x : ℚ) : m.adaptive = true → m.F = .single x → c.crit < mul c.sSingle x →
      Down mul c m { m with F := .single (mul c.sSingle x) }
  | high (lo hi : ℚ) : m.adaptive = true → m.F = .range lo hi → mul c.sLow lo ≤ c.crit →
      mul c.ratio lo < mul c.sHigh hi → Down mul c m { m with F := .range lo (mul c.sHigh hi) }
  | stuckRange (lo hi : ℚ) : m.adaptive = true → m.F = .range lo hi → mul c.sLow lo ≤ c.crit →
      mul c.sHigh hi ≤ mul c.ratio lo → Down mul c m { m with limited := true }
  | stuckOne (x : ℚ) : m.adaptive = true → m.F = .single x → mul c.sSingle x ≤ c.crit →
      Down mul c m { m with limited := true }

theorem down_spec {c : Consts ℚ} (hc : Good p c) (hmul : Mul p mul) {m : FM ℚ} (hm : Inv p m) :
    Down mul c m (down mul c m) := by
  cases ha : m.adaptive with
  | false => simp only [down, ha]; exact .off ha
  | true =>
    have hpos := hm.pos
    have hle := hm.le
    have hlo := hm.lo
    have hhi := hm.hi
    cases hF : m.F with
    | range lo hi =>
      rw [hF] at hpos hle hlo hhi
      simp only [FVal.lowest, FVal.highest] at hpos hle hlo hhi
      have s1 := (shrink hc.bits hmul hc.low0 hc.low1 hpos).2
      have s2 := (shrink hc.bits hmul hc.high0 hc.high1 (lt_of_lt_of_le hpos hle)).2
      simp only [down, ha, hF, scale0, FVal.lowest, Bool.not_true, Bool.false_eq_true, if_false]
      split_ifs with h1 h2
      · have : ¬ mul c.sLow lo > m.origLo := by linarith
        simp only [setLowest, hF, if_neg this]
        exact .low lo hi ha hF h1
      · have : ¬ mul c.sHigh hi > m.origHi := by linarith
        simp only [setHighest, hF, if_neg this]
        exact .high lo hi ha hF (not_lt.1 h1) h2
      · simpa only [hF, ha] using Down.stuckRange (mul := mul) lo hi ha hF (not_lt.1 h1) (not_lt.1 h2)
    | single x =>
      rw [hF] at hpos hlo
      simp only [FVal.lowest] at hpos hlo
      have s1 := (shrink hc.bits hmul hc.single0 hc.single1 hpos).2
      simp only [down, ha, hF, scale0, FVal.lowest, Bool.not_true, Bool.false_eq_true, if_false]
      split_ifs with h1
      · have : ¬ mul c.sSingle x > m.origLo := by linarith
        simp only [setLowest, hF, if_neg this]
        exact .one x ha hF h1
      · simpa only [hF, ha] using Down.stuckOne (mul := mul) x ha hF (not_lt.1 h1)

theorem inv_down {c : Consts ℚ} (hc : Good p c) (hmul : Mul p mul) {m : FM ℚ} (hm : Inv p m) :
    Inv p (down mul c m) ∧ (down mul c m).origLo = m.origLo ∧ (down mul c m).origHi = m.origHi ∧
      (down mul c m).adaptive = m.adaptive := by
  have h := down_spec hc hmul hm
  obtain ⟨hpos, hle, hlo, hhi, horig, r1, r2, r3, r4⟩ := hm
  generalize down mul c m = m' at h
  cases h with
  | off => exact ⟨⟨hpos, hle, hlo, hhi, horig, r1, r2, r3, r4⟩, rfl, rfl, rfl⟩
  | low lo hi ha hF h1 =>
    simp only [hF, FVal.lowest, FVal.highest] at hpos hle hlo hhi r1 r2
    have := shrink hc.bits hmul hc.low0 hc.low1 hpos
    exact ⟨⟨this.1, by simp only [FVal.lowest, FVal.highest]; linarith, by simp only [FVal.lowest]; linarith, hhi, horig,
      (hmul _ _).1, r2, r3, r4⟩, rfl, rfl, rfl⟩
  | one x ha hF h1 =>
    simp only [hF, FVal.lowest, FVal.highest] at hpos hle hlo hhi r1 r2
    have := shrink hc.bits hmul hc.single0 hc.single1 hpos
    exact ⟨⟨this.1, le_rfl, by simp only [FVal.lowest]; linarith, by simp only [FVal.highest]; linarith, horig,
      (hmul _ _).1, (hmul _ _).1, r3, r4⟩, rfl, rfl, rfl⟩
  | high lo hi ha hF h1 h2 =>
    simp only [hF, FVal.lowest, FVal.highest] at hpos hle hlo hhi r1 r2
    have s := shrink hc.bits hmul hc.high0 hc.high1 (lt_of_lt_of_le hpos hle)
    have k := keep hmul hc.ratio hpos r1
    exact ⟨⟨hpos, by simp only [FVal.lowest, FVal.highest]; linarith, hlo, by simp only [FVal.highest]; linarith, horig,
      r1, (hmul _ _).1, r3, r4⟩, rfl, rfl, rfl⟩
  | stuckRange => exact ⟨⟨hpos, hle, hlo, hhi, horig, r1, r2, r3, r4⟩, rfl, rfl, rfl⟩
  | stuckOne => exact ⟨⟨hpos, hle, hlo, hhi, horig, r1, r2, r3, r4⟩, rfl, rfl, rfl⟩

theorem repr_min {x y : ℚ} (hx : Repr p x) (hy : Repr p y) : Repr p (min x y) := by
  rcases min_choice x y with h | h <;> rw [h] <;> assumption

/-- What one scale-up does. -/
inductive Up (mul : ℚ → ℚ → ℚ) (c : Consts ℚ) (m : FM ℚ) : FM ℚ → Prop where
  | off : m.adaptive = false → Up mul c m m
  | high (lo hi : ℚ) : m.adaptive = true → m.F = .range lo hi → hi < m.origHi →
      Up mul c m { m with F := .range lo (min (mul hi c.upHigh) m.origHi), limited := false }
  | low (lo hi : ℚ) : m.adaptive = true → m.F = .range lo hi → hi = m.origHi → lo < m.origLo →
      Up mul c m { m with F := .range (min (mul lo c.upLow) m.origLo) hi, limited := false }
  | fullRange (lo hi : ℚ) : m.adaptive = true → m.F = .range lo hi → hi = m.origHi → lo = m.origLo →
      Up mul c m { m with limited := false }
  | one (x : ℚ) : m.adaptive = true → m.F = .single x → x < m.origLo →
      Up mul c m { m with F := .single (min (mul x c.upSingle) m.origLo), limited := false }
  | fullOne (x : ℚ) : m.adaptive = true → m.F = .single x → x = m.origLo →
      Up mul c m { m with limited := false }

theorem up_spec {c : Consts ℚ} {m : FM ℚ} (hm : Inv p m) : Up mul c m (up mul c m) := by
  cases ha : m.adaptive with
  | false => simp only [up, ha]; exact .off ha
  | true =>
    have hlo := hm.lo
    have hhi := hm.hi
    cases hF : m.F with
    | range lo hi =>
      rw [hF] at hlo hhi
      simp only [FVal.lowest, FVal.highest] at hlo hhi
      simp only [up, upLowest, ha, hF, up0, FVal.lowest, Bool.not_true, Bool.false_eq_true, if_false]
      split_ifs with h1 h2
      · have : ¬ min (mul hi c.upHigh) m.origHi > m.origHi := not_lt.2 (min_le_right _ _)
        simp only [setHighest, if_neg this]
        simpa only [ha] using Up.high (mul := mul) (c := c) lo hi ha hF h1
      · have : ¬ min (mul lo c.upLow) m.origLo > m.origLo := not_lt.2 (min_le_right _ _)
        simp only [setLowest, if_neg this]
        simpa only [ha] using Up.low (mul := mul) (c := c) lo hi ha hF (le_antisymm hhi (not_lt.1 h1)) h2
      · simpa only [hF, ha] using Up.fullRange (mul := mul) (c := c) lo hi ha hF (le_antisymm hhi (not_lt.1 h1))
          (le_antisymm hlo (not_lt.1 h2))
    | single x =>
      rw [hF] at hlo
      simp only [FVal.lowest] at hlo
      simp only [up, upLowest, ha, hF, up0, FVal.lowest, Bool.not_true, Bool.false_eq_true, if_false]
      split_ifs with h1
      · have : ¬ min (mul x c.upSingle) m.origLo > m.origLo := not_lt.2 (min_le_right _ _)
        simp only [setLowest, if_neg this]
        simpa only [ha] using Up.one (mul := mul) (c := c) x ha hF h1
      · simpa only [hF, ha] using Up.fullOne (mul := mul) (c := c) x ha hF (le_antisymm hlo (not_lt.1 h1))

theorem inv_up {c : Consts ℚ} (hc : Good p c) (hmul : Mul p mul) {m : FM ℚ} (hm : Inv p m)
    (hsing : ∀ x, m.F = .single x → m.origLo = m.origHi) :
    Inv p (up mul c m) ∧ (up mul c m).origLo = m.origLo ∧ (up mul c m).origHi = m.origHi ∧
      (up mul c m).adaptive = m.adaptive ∧ m.F.lowest ≤ (up mul c m).F.lowest ∧
      m.F.highest ≤ (up mul c m).F.highest := by
  have h := up_spec (mul := mul) (c := c) hm
  obtain ⟨hpos, hle, hlo, hhi, horig, r1, r2, r3, r4⟩ := hm
  generalize up mul c m = m' at h
  cases h with
  | off => exact ⟨⟨hpos, hle, hlo, hhi, horig, r1, r2, r3, r4⟩, rfl, rfl, rfl, le_rfl, le_rfl⟩
  | high lo hi ha hF h1 =>
    rw [hF] at hpos hle hlo hhi r1 r2 ⊢
    simp only [FVal.lowest, FVal.highest] at hpos hle hlo hhi r1 r2
    have g := grow hc.bits hmul hc.upHigh (lt_of_lt_of_le hpos hle)
    have g' : hi ≤ min (mul hi c.upHigh) m.origHi := le_min (by linarith) hhi
    exact ⟨⟨hpos, le_trans hle g', hlo, min_le_right _ _, horig, r1, repr_min (hmul _ _).1 r4, r3, r4⟩, rfl, rfl, rfl,
      le_rfl, g'⟩
  | low lo hi ha hF h1 h2 =>
    rw [hF] at hpos hle hlo hhi r1 r2 ⊢
    simp only [FVal.lowest, FVal.highest] at hpos hle hlo hhi r1 r2
    have g := grow hc.bits hmul hc.upLow hpos
    have g' : lo ≤ min (mul lo c.upLow) m.origLo := le_min (by linarith) hlo
    refine ⟨⟨lt_of_lt_of_le hpos g', ?_, min_le_right _ _, hhi, horig, repr_min (hmul _ _).1 r3, r2, r3, r4⟩, rfl, rfl, rfl,
      g', le_rfl⟩
    simp only [FVal.lowest, FVal.highest]
    rw [h1]; exact (min_le_right _ _).trans horig
  | fullRange => exact ⟨⟨hpos, hle, hlo, hhi, horig, r1, r2, r3, r4⟩, rfl, rfl, rfl, le_rfl, le_rfl⟩
  | one x ha hF h1 =>
    have ho := hsing x hF
    rw [hF] at hpos hle hlo hhi r1 r2 ⊢
    simp only [FVal.lowest, FVal.highest] at hpos hle hlo hhi r1 r2
    have g := grow hc.bits hmul hc.upSingle hpos
    have g' : x ≤ min (mul x c.upSingle) m.origLo := le_min (by linarith) hlo
    exact ⟨⟨lt_of_lt_of_le hpos g', le_rfl, min_le_right _ _, (min_le_right _ _).trans horig, horig,
      repr_min (hmul _ _).1 r3, repr_min (hmul _ _).1 r3, r3, r4⟩, rfl, rfl, rfl, g', g'⟩
  | fullOne => exact ⟨⟨hpos, hle, hlo, hhi, horig, r1, r2, r3, r4⟩, rfl, rfl, rfl, le_rfl, le_rfl⟩

/-- A single number has one original value, and the kind of the value never changes. -/
def Kind (m : FM ℚ) : Prop := ∀ x, m.F = .single x → m.origLo = m.origHi

theorem kind_init {c : Consts ℚ} (F : FVal ℚ) (a : Bool) : Kind (init c F a) := by
  cases F with
  | range lo hi => intro x h; simp [init] at h
  | single x => intro y _; rfl

theorem kind_step {c : Consts ℚ} (hc : Good p c) (hmul : Mul p mul) {m : FM ℚ} (hm : Inv p m) (hk : Kind m) (o : Op) :
    Kind (step mul c m o) := by
  cases o with
  | down =>
    have h := down_spec hc hmul hm
    simp only [step]
    generalize down mul c m = m' at h
    intro x hx
    cases h with
    | off => exact hk x hx
    | low => cases hx
    | one y _ hF _ => exact hk y hF
    | high => cases hx
    | stuckRange => exact hk x hx
    | stuckOne => exact hk x hx
  | up =>
    have h := up_spec (mul := mul) (c := c) hm
    simp only [step]
    generalize up mul c m = m' at h
    intro x hx
    cases h with
    | off => exact hk x hx
    | high => cases hx
    | low => cases hx
    | fullRange => exact hk x hx
    | one y _ hF _ => exact hk y hF
    | fullOne => exact hk x hx

/-- What holds after any requests. -/
structure Ok (p : ℕ) (F : FVal ℚ) (a : Bool) (m : FM ℚ) : Prop where
  inv : Inv p m
  lo : m.origLo = F.lowest
  hi : m.origHi = F.highest
  adaptive : m.adaptive = a
  kind : Kind m

theorem ok_step {c : Consts ℚ} (hc : Good p c) (hmul : Mul p mul) {F : FVal ℚ} {a : Bool} {m : FM ℚ} (h : Ok p F a m)
    (o : Op) : Ok p F a (step mul c m o) := by
  have hk := kind_step hc hmul h.inv h.kind o
  cases o with
  | down =>
    obtain ⟨h1, h2, h3, h4⟩ := inv_down hc hmul h.inv
    exact ⟨h1, h2.trans h.lo, h3.trans h.hi, h4.trans h.adaptive, hk⟩
  | up =>
    obtain ⟨h1, h2, h3, h4, -⟩ := inv_up hc hmul h.inv h.kind
    exact ⟨h1, h2.trans h.lo, h3.trans h.hi, h4.trans h.adaptive, hk⟩

theorem ok_steps {c : Consts ℚ} (hc : Good p c) (hmul : Mul p mul) {F : FVal ℚ} {a : Bool} (ops : List Op) {m : FM ℚ}
    (h : Ok p F a m) : Ok p F a (run mul c m ops) := by
  induction ops generalizing m with
  | nil => exact h
  | cons o os ih => exact ih (ok_step hc hmul h o)

theorem ok_run {c : Consts ℚ} (hc : Good p c) (hmul : Mul p mul) {F : FVal ℚ} (hF : Initial p F) (a : Bool)
    (ops : List Op) : Ok p F a (run mul c (init c F a) ops) := by
  obtain ⟨h1, -, h3, h4, h5, -⟩ := inv_init (c := c) hF a
  exact ok_steps hc hmul ops ⟨h1, h3, h4, h5, kind_init F a⟩

/-- C132: after any scale-ups and scale-downs the range is a proper one within the original limits, in spite of
rounding. -/
theorem C132_range_within_limits (c : Consts ℚ) (hc : Good p c) (hmul : Mul p mul) (F : FVal ℚ) (hF : Initial p F)
    (adaptive : Bool) (ops : List Op) :
    let m := run mul c (init c F adaptive) ops
    0 < m.F.lowest ∧ m.F.lowest ≤ m.F.highest ∧ m.F.lowest ≤ F.lowest ∧ m.F.highest ≤ F.highest := by
  have h := ok_run hc hmul hF adaptive ops
  exact ⟨h.inv.pos, h.inv.le, h.lo ▸ h.inv.lo, h.hi ▸ h.inv.hi⟩

/-- C132: every mutation factor drawn lies in the current range, in spite of three roundings. -/
theorem C132_draws_in_range (c : Consts ℚ) (hc : Good p c) (hmul : Mul p mul) (F : FVal ℚ) (hF : Initial p F)
    (adaptive : Bool) (ops : List Op) (u v : ℚ) (hu : Repr p u) (hu0 : 0 ≤ u) (hu1 : u < 1)
    (hv : Get p (run mul c (init c F adaptive) ops) u v) :
    let m := run mul c (init c F adaptive) ops
    m.F.lowest ≤ v ∧ v ≤ m.F.highest := by
  have h := (ok_run hc hmul hF adaptive ops).inv
  dsimp only
  generalize run mul c (init c F adaptive) ops = m at h hv
  obtain ⟨-, hle, -, -, -, r1, r2, -, -⟩ := h
  unfold Get at hv
  cases hm : m.F with
  | range lo hi =>
    rw [hm] at hv hle r1 r2
    exact C105_fromUnity_within p lo hi u v r1 r2 hle hu hu0 hu1 hv
  | single x =>
    rw [hm] at hv
    subst hv
    exact ⟨le_rfl, le_rfl⟩

/-- C132: a lower limit above the critical value stays above it. -/
theorem C132_stays_above_critical (c : Consts ℚ) (hc : Good p c) (hmul : Mul p mul) (F : FVal ℚ) (hF : Initial p F)
    (adaptive : Bool) (hcrit : c.crit < F.lowest) (ops : List Op) :
    c.crit < (run mul c (init c F adaptive) ops).F.lowest := by
  induction ops using List.reverseRecOn with
  | nil =>
    have := (inv_init (c := c) hF adaptive).2.1
    simp only [run, List.foldl_nil, this]; exact hcrit
  | append_singleton ops o ih =>
    have hrun : run mul c (init c F adaptive) (ops ++ [o]) = step mul c (run mul c (init c F adaptive) ops) o := by
      simp [run]
    rw [hrun]
    have hok := ok_run hc hmul hF adaptive ops
    generalize run mul c (init c F adaptive) ops = m at hok ih
    cases o with
    | up => exact lt_of_lt_of_le ih (inv_up hc hmul hok.inv hok.kind).2.2.2.2.1
    | down =>
      have h := down_spec hc hmul hok.inv
      simp only [step]
      generalize down mul c m = m' at h
      cases h with
      | off => exact ih
      | low lo hi _ hF h1 => exact h1
      | one x _ hF h1 => exact h1
      | high lo hi _ hF _ _ => rw [hF] at ih; exact ih
      | stuckRange => exact ih
      | stuckOne => exact ih

/-! ## Down to the limit -/

theorem down_flag (c : Consts ℚ) (m : FM ℚ) :
    down mul c { m with limited := true } = { down mul c m with limited := true } := by
  obtain ⟨F, a, ol, oh, l⟩ := m
  cases a <;> cases F <;>
    simp only [down, setLowest, setHighest, Bool.not_true, Bool.not_false,
      Bool.false_eq_true, if_false, if_true] <;>
    split_ifs <;> rfl

theorem run_replicate_succ (c : Consts ℚ) (m : FM ℚ) (o : Op) (n : ℕ) :
    run mul c m (List.replicate (n + 1) o) = step mul c (run mul c m (List.replicate n o)) o := by
  rw [List.replicate_succ']; simp [run]

theorem stuck {c : Consts ℚ} {m : FM ℚ} (h : down mul c m = { m with limited := true }) (n : ℕ) :
    run mul c m (List.replicate (n + 1) .down) = { m with limited := true } := by
  induction n with
  | zero => exact h
  | succ n ih => rw [run_replicate_succ, ih]; simp only [step]; rw [down_flag, h]

theorem down_shrinks {c : Consts ℚ} (hc : Good p c) (hmul : Mul p mul) {m : FM ℚ} (hm : Inv p m)
    (ha : m.adaptive = true) :
    down mul c m = { m with limited := true } ∨
      ((down mul c m).F.lowest * (down mul c m).F.highest ≤ 10 / 11 * (m.F.lowest * m.F.highest) ∧
        ((down mul c m).F.lowest = m.F.lowest ∨ c.crit < (down mul c m).F.lowest)) := by
  have h := down_spec hc hmul hm
  have hpos := hm.pos
  have hle := hm.le
  generalize down mul c m = m' at h
  cases h with
  | off h0 => rw [ha] at h0; cases h0
  | low lo hi _ hF h1 =>
    simp only [hF, FVal.lowest, FVal.highest] at *
    refine .inr ⟨?_, .inr h1⟩
    have := (shrink hc.bits hmul hc.low0 hc.low1 hpos).2
    rw [← mul_assoc]
    exact mul_le_mul_of_nonneg_right this (by linarith)
  | one x _ hF h1 =>
    simp only [hF, FVal.lowest, FVal.highest] at *
    refine .inr ⟨?_, .inr h1⟩
    have := shrink hc.bits hmul hc.single0 hc.single1 hpos
    rw [← mul_assoc]
    exact mul_le_mul this.2 (by linarith) this.1.le (by positivity)
  | high lo hi _ hF h1 h2 =>
    simp only [hF, FVal.lowest, FVal.highest] at *
    refine .inr ⟨?_, .inl (by trivial)⟩
    have := (shrink hc.bits hmul hc.high0 hc.high1 (lt_of_lt_of_le hpos hle)).2
    rw [show 10 / 11 * (lo * hi) = lo * (10 / 11 * hi) by ring]
    exact mul_le_mul_of_nonneg_left this hpos.le
  | stuckRange => exact .inl rfl
  | stuckOne => exact .inl rfl

/-- C132: consecutive scale-downs of an adaptive range always reach a state in which the limit is reported, after which
further ones change nothing. -/
theorem C132_reaches_limit (c : Consts ℚ) (hc : Good p c) (hmul : Mul p mul) (F : FVal ℚ) (hF : Initial p F)
    (ops : List Op) :
    ∃ n, ∀ k, n ≤ k →
      (run mul c (init c F true) (ops ++ List.replicate k .down)).limited = true ∧
      (run mul c (init c F true) (ops ++ List.replicate k .down)).F =
        (run mul c (init c F true) (ops ++ List.replicate n .down)).F := by
  have hok := ok_run hc hmul hF true ops
  have hrun : ∀ k, run mul c (init c F true) (ops ++ List.replicate k .down) =
      run mul c (run mul c (init c F true) ops) (List.replicate k .down) := fun k => by simp [run]
  simp only [hrun]
  generalize run mul c (init c F true) ops = m at hok
  by_cases hstuck : ∃ n, down mul c (run mul c m (List.replicate n .down)) =
      { run mul c m (List.replicate n .down) with limited := true }
  · obtain ⟨n, hn⟩ := hstuck
    have h1 : ∀ k, n + 1 ≤ k → run mul c m (List.replicate k .down) =
        { run mul c m (List.replicate n .down) with limited := true } := by
      intro k hk
      obtain ⟨j, rfl⟩ := Nat.exists_eq_add_of_le hk
      have := stuck hn j
      rw [← this, show n + 1 + j = n + (j + 1) by omega]
      simp only [run]
      rw [List.replicate_add, List.foldl_append]
    refine ⟨n + 1, fun k hk => ?_⟩
    rw [h1 k hk, h1 (n + 1) le_rfl]
    exact ⟨rfl, rfl⟩
  · exfalso
    push Not at hstuck
    have okn : ∀ n, Ok p F true (run mul c m (List.replicate n .down)) := fun n => ok_steps hc hmul _ hok
    set b := min m.F.lowest c.crit with hb
    have hb0 : 0 < b := lt_min hok.inv.pos hc.crit
    have key : ∀ n, (run mul c m (List.replicate n .down)).F.lowest * (run mul c m (List.replicate n .down)).F.highest ≤
        (10 / 11) ^ n * (m.F.lowest * m.F.highest) ∧ b ≤ (run mul c m (List.replicate n .down)).F.lowest := by
      intro n
      induction n with
      | zero => exact ⟨by simp [run], min_le_left _ _⟩
      | succ n ih =>
        rw [run_replicate_succ]
        simp only [step]
        rcases down_shrinks hc hmul (okn n).inv (okn n).adaptive with h | ⟨h1, h2⟩
        · exact absurd h (hstuck n)
        · constructor
          · refine h1.trans ?_
            rw [pow_succ, mul_comm ((10 / 11 : ℚ) ^ n), mul_assoc]
            exact mul_le_mul_of_nonneg_left ih.1 (by norm_num)
          · rcases h2 with h2 | h2
            · rw [h2]; exact ih.2
            · exact (min_le_right _ _).trans h2.le
    have hP : 0 < m.F.lowest * m.F.highest := mul_pos hok.inv.pos (lt_of_lt_of_le hok.inv.pos hok.inv.le)
    obtain ⟨n, hn⟩ := exists_pow_lt_of_lt_one (div_pos (mul_pos hb0 hb0) hP) (by norm_num : (10 / 11 : ℚ) < 1)
    rw [lt_div_iff₀ hP] at hn
    obtain ⟨k1, k2⟩ := key n
    have k3 := (okn n).inv.le
    have k4 := mul_le_mul k2 (k2.trans k3) hb0.le (hb0.le.trans k2)
    linarith

/-! ## Up to the original range -/

theorem up_grows {c : Consts ℚ} (hc : Good p c) (hmul : Mul p mul) {m : FM ℚ} (hm : Inv p m) (hk : Kind m)
    (ha : m.adaptive = true) :
    (m.F.lowest = m.origLo ∧ m.F.highest = m.origHi ∧ (up mul c m).F = m.F) ∨
      (12 / 11 * (m.F.lowest * m.F.highest) ≤ (up mul c m).F.lowest * (up mul c m).F.highest) ∨
      (m.F.highest < m.origHi ∧ (up mul c m).F.highest = m.origHi) ∨
      (m.F.lowest < m.origLo ∧ (up mul c m).F.lowest = m.origLo ∧ (up mul c m).F.highest = m.origHi) := by
  have h := up_spec (mul := mul) (c := c) hm
  have hpos := hm.pos
  have hle := hm.le
  generalize up mul c m = m' at h
  cases h with
  | off h0 => rw [ha] at h0; cases h0
  | high lo hi _ hF h1 =>
    simp only [hF, FVal.lowest, FVal.highest] at *
    rcases le_total (mul hi c.upHigh) m.origHi with h | h
    · right; left
      rw [min_eq_left h]
      have := grow hc.bits hmul hc.upHigh (lt_of_lt_of_le hpos hle)
      rw [show 12 / 11 * (lo * hi) = lo * (12 / 11 * hi) by ring]
      exact mul_le_mul_of_nonneg_left this hpos.le
    · right; right; left
      exact ⟨h1, min_eq_right h⟩
  | low lo hi _ hF h1 h2 =>
    simp only [hF, FVal.lowest, FVal.highest] at *
    rcases le_total (mul lo c.upLow) m.origLo with h | h
    · right; left
      rw [min_eq_left h, ← mul_assoc]
      exact mul_le_mul_of_nonneg_right (grow hc.bits hmul hc.upLow hpos) (by linarith)
    · right; right; right
      exact ⟨h2, min_eq_right h, h1⟩
  | fullRange lo hi _ hF h1 h2 =>
    left
    simp only [hF, FVal.lowest, FVal.highest]
    exact ⟨h2, h1, trivial⟩
  | one x _ hF h1 =>
    have ho := hk x hF
    simp only [hF, FVal.lowest, FVal.highest] at *
    rcases le_total (mul x c.upSingle) m.origLo with h | h
    · right; left
      rw [min_eq_left h]
      have := grow hc.bits hmul hc.upSingle hpos
      rw [← mul_assoc]
      exact mul_le_mul this (by linarith) hpos.le (by linarith)
    · right; right; right
      exact ⟨h1, min_eq_right h, by rw [min_eq_right h, ho]⟩
  | fullOne x _ hF h1 =>
    left
    have ho := hk x hF
    simp only [hF, FVal.lowest, FVal.highest]
    exact ⟨h1, by rw [h1, ho], trivial⟩

/-- The product of the limits can not grow forever. -/
theorem no_growth {c : Consts ℚ} (hc : Good p c) (hmul : Mul p mul) {F : FVal ℚ} {m : FM ℚ} (hok : Ok p F true m)
    (h : ∀ n, 12 / 11 * ((run mul c m (List.replicate n .up)).F.lowest *
        (run mul c m (List.replicate n .up)).F.highest) ≤
      (run mul c m (List.replicate (n + 1) .up)).F.lowest * (run mul c m (List.replicate (n + 1) .up)).F.highest) :
    False := by
  have okn : ∀ n, Ok p F true (run mul c m (List.replicate n .up)) := fun n => ok_steps hc hmul _ hok
  have hP : 0 < m.F.lowest * m.F.highest := mul_pos hok.inv.pos (lt_of_lt_of_le hok.inv.pos hok.inv.le)
  have key : ∀ n, (12 / 11) ^ n * (m.F.lowest * m.F.highest) ≤
      (run mul c m (List.replicate n .up)).F.lowest * (run mul c m (List.replicate n .up)).F.highest := by
    intro n
    induction n with
    | zero => simp [run]
    | succ n ih =>
      refine le_trans ?_ (h n)
      rw [pow_succ, mul_comm ((12 / 11 : ℚ) ^ n), mul_assoc]
      exact mul_le_mul_of_nonneg_left ih (by norm_num)
  obtain ⟨n, hn⟩ := pow_unbounded_of_one_lt (F.lowest * F.highest / (m.F.lowest * m.F.highest))
    (by norm_num : (1 : ℚ) < 12 / 11)
  rw [div_lt_iff₀ hP] at hn
  have k := key n
  obtain ⟨i1, i2, i3, i4, -⟩ := (okn n).inv
  rw [(okn n).lo] at i3
  rw [(okn n).hi] at i4
  have := mul_le_mul i3 i4 (by linarith) (by linarith)
  linarith

theorem run_add (c : Consts ℚ) (m : FM ℚ) (o : Op) (n k : ℕ) :
    run mul c m (List.replicate (n + k) o) = run mul c (run mul c m (List.replicate n o)) (List.replicate k o) := by
  simp only [run]
  rw [List.replicate_add, List.foldl_append]

/-- Of an `F` of known kind the two limits are all there is. -/
def SameKind : FVal ℚ → FVal ℚ → Prop
  | .range _ _, .range _ _ => True
  | .single _, .single _ => True
  | _, _ => False

theorem same_kind {F G : FVal ℚ} (h : SameKind F G) (h1 : F.lowest = G.lowest) (h2 : F.highest = G.highest) : F = G := by
  cases F <;> cases G <;> simp_all [SameKind, FVal.lowest, FVal.highest]

theorem kind_steps (c : Consts ℚ) (ops : List Op) (m : FM ℚ) : SameKind (run mul c m ops).F m.F := by
  induction ops using List.reverseRecOn with
  | nil => cases h : m.F <;> simp [run, h, SameKind]
  | append_singleton ops o ih =>
    have hrun : run mul c m (ops ++ [o]) = step mul c (run mul c m ops) o := by simp [run]
    rw [hrun]
    generalize run mul c m ops = m' at ih
    obtain ⟨F, a, ol, oh, l⟩ := m'
    generalize m.F = G at ih
    cases o <;> cases a <;> cases F <;> cases G <;>
      simp only [step, up, down, upLowest, setLowest, setHighest, Bool.not_true, Bool.not_false,
        Bool.false_eq_true, if_false, if_true] <;>
      (try split_ifs) <;> simp_all [SameKind]

/-- C132: enough scale-ups restore the original range exactly, whatever happened before. -/
theorem C132_ups_restore (c : Consts ℚ) (hc : Good p c) (hmul : Mul p mul) (F : FVal ℚ) (hF : Initial p F)
    (ops : List Op) :
    ∃ n, ∀ k, n ≤ k → (run mul c (init c F true) (ops ++ List.replicate k .up)).F = F := by
  have hok := ok_run hc hmul hF true ops
  have hkind := kind_steps (mul := mul) c ops (init c F true)
  rw [(inv_init (c := c) hF true).2.1] at hkind
  have hrun : ∀ k, run mul c (init c F true) (ops ++ List.replicate k .up) =
      run mul c (run mul c (init c F true) ops) (List.replicate k .up) := fun k => by simp [run]
  simp only [hrun]
  generalize run mul c (init c F true) ops = m at hok hkind
  have okn : ∀ n, Ok p F true (run mul c m (List.replicate n .up)) := fun n => ok_steps hc hmul _ hok
  have mono : ∀ n, (run mul c m (List.replicate n .up)).F.lowest ≤
        (run mul c m (List.replicate (n + 1) .up)).F.lowest ∧
      (run mul c m (List.replicate n .up)).F.highest ≤ (run mul c m (List.replicate (n + 1) .up)).F.highest := by
    intro n
    rw [run_replicate_succ]
    exact (inv_up hc hmul (okn n).inv (okn n).kind).2.2.2.2
  have grows : ∀ n, _ := fun n => up_grows hc hmul (okn n).inv (okn n).kind (okn n).adaptive
  have hup : ∀ n, up mul c (run mul c m (List.replicate n .up)) = run mul c m (List.replicate (n + 1) .up) :=
    fun n => by rw [run_replicate_succ]; rfl
  simp only [hup, (okn _).lo, (okn _).hi] at grows
  -- the upper limit
  obtain ⟨n₁, h₁⟩ : ∃ n, (run mul c m (List.replicate n .up)).F.highest = F.highest := by
    by_contra hne
    push Not at hne
    refine no_growth hc hmul hok fun n => ?_
    rcases grows n with ⟨-, h, -⟩ | h | ⟨-, h⟩ | ⟨-, -, h⟩
    · exact absurd h (hne n)
    · exact h
    · exact absurd h (hne (n + 1))
    · exact absurd h (hne (n + 1))
  have top : ∀ k, (run mul c m (List.replicate (n₁ + k) .up)).F.highest = F.highest := by
    intro k
    induction k with
    | zero => exact h₁
    | succ k ih =>
      have h1 := (mono (n₁ + k)).2
      have h2 := (okn (n₁ + k + 1)).inv.hi
      rw [(okn _).hi] at h2
      rw [ih] at h1
      exact le_antisymm h2 h1
  -- the lower limit
  obtain ⟨n₂, h₂⟩ : ∃ n, (run mul c m (List.replicate (n₁ + n) .up)).F.lowest = F.lowest := by
    by_contra hne
    push Not at hne
    refine no_growth hc hmul (okn n₁) fun n => ?_
    rw [← run_add, ← run_add]
    rcases grows (n₁ + n) with ⟨h, -, -⟩ | h | ⟨h, -⟩ | ⟨-, h, -⟩
    · exact absurd h (hne n)
    · exact h
    · rw [top n] at h; exact absurd h (lt_irrefl _)
    · exact absurd h (hne (n + 1))
  have bottom : ∀ k, (run mul c m (List.replicate (n₁ + n₂ + k) .up)).F.lowest = F.lowest := by
    intro k
    induction k with
    | zero => exact h₂
    | succ k ih =>
      have h1 := (mono (n₁ + n₂ + k)).1
      have h2 := (okn (n₁ + n₂ + k + 1)).inv.lo
      rw [(okn _).lo] at h2
      rw [ih] at h1
      exact le_antisymm h2 h1
  refine ⟨n₁ + n₂, fun k hk => ?_⟩
  obtain ⟨j, rfl⟩ := Nat.exists_eq_add_of_le hk
  refine same_kind ?_ (bottom j) (by rw [Nat.add_assoc]; exact top _)
  have := kind_steps (mul := mul) c (List.replicate (n₁ + n₂ + j) .up) m
  revert this hkind
  generalize (run mul c m (List.replicate (n₁ + n₂ + j) .up)).F = A
  generalize m.F = B
  cases A <;> cases B <;> cases F <;> simp [SameKind]

end

theorem up_factor {a : ℝ} (ha : 0 < a) (h : (11 / 10 : ℝ) ^ 100 * a ^ 88 < 1) : 11 / 10 < a ^ (-0.88 : ℝ) := by
  have h0 : (0 : ℝ) ≤ a ^ (-0.88 : ℝ) := (Real.rpow_pos_of_pos ha _).le
  rw [← pow_lt_pow_iff_left₀ (by norm_num) h0 (n := 100) (by norm_num), ← Real.rpow_natCast (a ^ (-0.88 : ℝ)),
    ← Real.rpow_mul ha.le]
  have : (-0.88 : ℝ) * (100 : ℕ) = -((88 : ℕ) : ℝ) := by norm_num
  rw [this, Real.rpow_neg ha.le, Real.rpow_natCast, ← one_div, lt_div_iff₀ (by positivity)]
  exact h

/-- C132: the scale-up factors of the code, before rounding, are more than what `Good` asks for. -/
theorem C132_actual_factors (CR : ℝ) (Np : ℕ) :
    11 / 10 < (actual CR Np).upLow ∧ 11 / 10 < (actual CR Np).upHigh ∧ 11 / 10 < (actual CR Np).upSingle :=
  ⟨up_factor (by norm_num) (by norm_num), up_factor (by norm_num) (by norm_num), up_factor (by norm_num) (by norm_num)⟩

/-! ## Non-vacuity -/

/-- Exact products are the model without rounding. -/
theorem exact_down (c : Consts ℚ) (m : FM ℚ) : down (· * ·) c m = FManager.down c m := by
  obtain ⟨F, a, ol, oh, l⟩ := m
  cases F <;> rfl

/-- Exact products are the model without rounding. -/
theorem exact_up (c : Consts ℚ) (m : FM ℚ) : up (· * ·) c m = FManager.up c m := by
  obtain ⟨F, a, ol, oh, l⟩ := m
  cases F <;> rfl

namespace Demo

/-- A multiplication of floats of 53 bits. -/
noncomputable def times (x y : ℚ) : ℚ := (nearest_exists (p := 53) (by norm_num) (x * y)).choose

theorem times_mul : Mul 53 times := fun x y => (nearest_exists (p := 53) (by norm_num) (x * y)).choose_spec

/-- Constants like those of the code. -/
def consts : Consts ℚ := ⟨89 / 100, 87 / 100, 89 / 100, 3, 1 / 10, 1108 / 1000, 1130 / 1000, 1108 / 1000⟩

theorem good : Good 53 consts := by constructor <;> norm_num [consts]

/-- The default range `(0.5, 1.0)` (ade/de.py:393-395). -/
theorem initial : Initial 53 (.range (1 / 2) 1) :=
  ⟨by norm_num [Usable], ⟨1, -1, by norm_num, by norm_num [FVal.lowest]⟩, ⟨1, 0, by norm_num, by norm_num [FVal.highest]⟩⟩

example := C132_range_within_limits consts good times_mul _ initial true [.down, .down, .up]
example := C132_stays_above_critical consts good times_mul _ initial true (by norm_num [consts, FVal.lowest])
  [.down, .down, .up]
example := C132_reaches_limit consts good times_mul _ initial [.down, .up]
example := C132_ups_restore consts good times_mul _ initial [.down, .down]

/-- There is a draw. -/
theorem draw : Get 53 (run times consts (init consts (.range (1 / 2) 1) true) []) (1 / 2) (3 / 4) := by
  have hn : ∀ x : ℚ, Repr 53 x → Nearest 53 x x := fun x h => ⟨h, fun z _ => by simp⟩
  show Rounding.FromUnity 53 _ _ _ _
  refine ⟨1 / 2, 1 / 4, ?_, ?_, ?_⟩
  · have : (1 : ℚ) - (if (1 / 2 : ℚ) = 0 then consts.crit else 1 / 2) = 1 / 2 := by norm_num
    rw [this]; exact hn _ ⟨1, -1, by norm_num, by norm_num⟩
  · have : (1 / 2 : ℚ) * (1 / 2) = 1 / 4 := by norm_num
    rw [this]; exact hn _ ⟨1, -2, by norm_num, by norm_num⟩
  · have : (if (1 / 2 : ℚ) = 0 then consts.crit else 1 / 2) + 1 / 4 = 3 / 4 := by norm_num
    rw [this]; exact hn _ ⟨3, -2, by norm_num, by norm_num⟩

example := C132_draws_in_range consts good times_mul _ initial true [] (1 / 2) (3 / 4)
  ⟨1, -1, by norm_num, by norm_num⟩ (by norm_num) (by norm_num) draw

end Demo
end FRounded
end Ade
