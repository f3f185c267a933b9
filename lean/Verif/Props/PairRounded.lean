import Verif.Model.PairRounded
import Verif.Props.PairSampling
import Verif.Props.RelationsRounded

/-!
# C168: the number of random pairs with rounding
-/

set_option autoImplicit false

namespace Ade
namespace PairRounded

open RatioRounded (RoundsToNearest round53 round53_nearest)
open RelationsRounded (rounding_error_abs)
open PairSampling (streams rowPairs roundSize sampled inc)

/-! ## Lemmas -/

theorem step {fl : ℚ → ℚ} (hfl : RoundsToNearest fl) {x : ℚ} (h : 0 ≤ x) :
    x * (1 - 1 / 2 ^ 53) ≤ fl x ∧ fl x ≤ x * (1 + 1 / 2 ^ 53) := by
  have e := abs_le.1 (rounding_error_abs hfl x)
  rw [abs_of_nonneg h] at e
  constructor <;> linarith [e.1, e.2]

/-- One more operation: multiplication by a number that is not negative. -/
theorem next {fl : ℚ → ℚ} (hfl : RoundsToNearest fl) {a x c l u : ℚ} (hl : 0 ≤ l) (hx : 0 ≤ x) (hc : 0 ≤ c) (h1 : x * l ≤ a)
    (h2 : a ≤ x * u) :
    x * c * (l * (1 - 1 / 2 ^ 53)) ≤ fl (a * c) ∧ fl (a * c) ≤ x * c * (u * (1 + 1 / 2 ^ 53)) := by
  have ha : 0 ≤ a := (mul_nonneg hx hl).trans h1
  have s := step hfl (mul_nonneg ha hc)
  have m1 := mul_le_mul_of_nonneg_right h1 hc
  have m2 := mul_le_mul_of_nonneg_right h2 hc
  constructor
  · refine le_trans ?_ s.1
    have := mul_le_mul_of_nonneg_right m1 (show (0 : ℚ) ≤ 1 - 1 / 2 ^ 53 by norm_num)
    linarith
  · refine s.2.trans ?_
    have := mul_le_mul_of_nonneg_right m2 (show (0 : ℚ) ≤ 1 + 1 / 2 ^ 53 by norm_num)
    linarith

/-- The product in exact arithmetic. -/
def exact (Nr N : ℕ) : ℚ := 21/10 * Nr * (Nr - 1 : ℚ)⁻¹ * N

theorem bounds {fl : ℚ → ℚ} (hfl : RoundsToNearest fl) (Nr N : ℕ) (h2 : 2 ≤ Nr) :
    exact Nr N * (1 - 4 / 2 ^ 53) ≤ fl (mult fl Nr * N) ∧ fl (mult fl Nr * N) ≤ exact Nr N * (1 + 5 / 2 ^ 53) := by
  have hNr : (2 : ℚ) ≤ Nr := by exact_mod_cast h2
  have hi : (0 : ℚ) ≤ (Nr - 1 : ℚ)⁻¹ := inv_nonneg.2 (by linarith)
  have s1 := step hfl (show (0 : ℚ) ≤ 21/10 by norm_num)
  have s2 := next hfl (by norm_num) (by norm_num) (show (0 : ℚ) ≤ Nr by positivity) s1.1 s1.2
  have s3 := next hfl (by norm_num) (by positivity) hi s2.1 s2.2
  have s4 := next hfl (by norm_num) (by positivity) (show (0 : ℚ) ≤ N by positivity) s3.1 s3.2
  rw [mult, div_eq_mul_inv]
  have hx : 0 ≤ exact Nr N := by unfold exact; positivity
  constructor
  · refine le_trans ?_ s4.1
    exact mul_le_mul_of_nonneg_left (by norm_num) hx
  · refine s4.2.trans ?_
    exact mul_le_mul_of_nonneg_left (by norm_num) hx

theorem exact_eq (Nr N : ℕ) (h2 : 2 ≤ Nr) : exact Nr N * (Nr - 1) = 21/10 * Nr * N := by
  have hNr : (2 : ℚ) ≤ Nr := by exact_mod_cast h2
  have : (Nr - 1 : ℚ) ≠ 0 := by linarith
  unfold exact
  field_simp

theorem exact_range (Nr N : ℕ) (h2 : 2 ≤ Nr) : 21/10 * N ≤ exact Nr N ∧ exact Nr N ≤ 42/10 * N := by
  have hNr : (2 : ℚ) ≤ Nr := by exact_mod_cast h2
  have hp : (0 : ℚ) < Nr - 1 := by linarith
  have e := exact_eq Nr N h2
  have n0 : (0 : ℚ) ≤ N := by positivity
  constructor
  · refine le_of_mul_le_mul_right ?_ hp
    rw [e]
    nlinarith
  · refine le_of_mul_le_mul_right ?_ hp
    rw [e]
    nlinarith

theorem size_cast {fl : ℚ → ℚ} (hfl : RoundsToNearest fl) (Nr N : ℕ) (h2 : 2 ≤ Nr) :
    (size fl Nr N : ℚ) ≤ fl (mult fl Nr * N) ∧ fl (mult fl Nr * N) < size fl Nr N + 1 := by
  have hx : 0 ≤ exact Nr N := le_trans (by positivity) (exact_range Nr N h2).1
  have h0 : 0 ≤ fl (mult fl Nr * N) := le_trans (mul_nonneg hx (by norm_num)) (bounds hfl Nr N h2).1
  unfold size
  generalize fl (mult fl Nr * N) = a at *
  rw [show a.floor = ⌊a⌋ from rfl]
  have hf : 0 ≤ ⌊a⌋ := Int.floor_nonneg.2 h0
  have hc : ((⌊a⌋.toNat : ℕ) : ℚ) = (⌊a⌋ : ℚ) := by exact_mod_cast Int.toNat_of_nonneg hf
  rw [hc]
  exact ⟨Int.floor_le a, Int.lt_floor_add_one a⟩

/-! ## Theorems -/

/-- C168: a round draws at least two pairs and at most five for every pair missing. -/
theorem C168_enough (fl : ℚ → ℚ) (hfl : RoundsToNearest fl) (Nr N : ℕ) (h2 : 2 ≤ Nr) : 2 * N ≤ size fl Nr N ∧ size fl Nr N ≤ 5 * N := by
  have c := size_cast hfl Nr N h2
  have b := bounds hfl Nr N h2
  have r := exact_range Nr N h2
  rcases Nat.eq_zero_or_pos N with rfl | hN
  · refine ⟨by omega, ?_⟩
    have : (size fl Nr 0 : ℚ) ≤ 0 := by
      have e : exact Nr 0 = 0 := by simp [exact]
      rw [e, zero_mul, zero_mul] at b
      exact c.1.trans b.2
    have : size fl Nr 0 ≤ 0 := by exact_mod_cast this
    omega
  · have hN' : (1 : ℚ) ≤ N := by exact_mod_cast hN
    generalize fl (mult fl Nr * N) = a at *
    generalize exact Nr N = x at *
    constructor
    · have : (2 * N : ℚ) < size fl Nr N + 1 := by
        refine lt_of_le_of_lt ?_ c.2
        linarith [b.1, r.1, r.2]
      have : 2 * N < size fl Nr N + 1 := by exact_mod_cast this
      omega
    · have : (size fl Nr N : ℚ) ≤ 5 * N := by linarith [b.2, r.1, r.2, c.1]
      exact_mod_cast this

/-- C168: the number differs from that in exact arithmetic by one at most. -/
theorem C168_close (fl : ℚ → ℚ) (hfl : RoundsToNearest fl) (Nr N : ℕ) (h2 : 2 ≤ Nr) (hN : N ≤ 2 ^ 48) :
    roundSize Nr N ≤ size fl Nr N + 1 ∧ size fl Nr N ≤ roundSize Nr N + 1 := by
  have c := size_cast hfl Nr N h2
  have b := bounds hfl Nr N h2
  have r := exact_range Nr N h2
  have hN' : (N : ℚ) ≤ 2 ^ 48 := by exact_mod_cast hN
  have hNr : (2 : ℚ) ≤ Nr := by exact_mod_cast h2
  have hd : (0 : ℚ) < 10 * (Nr - 1) := by linarith
  have q1 : (roundSize Nr N : ℚ) ≤ exact Nr N := by
    have h : roundSize Nr N * (10 * (Nr - 1)) ≤ 21 * Nr * N := Nat.div_mul_le_self _ _
    have h' : (roundSize Nr N : ℚ) * (10 * (Nr - 1)) ≤ 21 * Nr * N := by
      have : ((Nr - 1 : ℕ) : ℚ) = Nr - 1 := by push_cast [show 1 ≤ Nr by omega]; ring
      rw [← this]
      exact_mod_cast h
    refine le_of_mul_le_mul_right ?_ hd
    linarith [exact_eq Nr N h2]
  have q2 : exact Nr N < roundSize Nr N + 1 := by
    have h : 21 * Nr * N < (roundSize Nr N + 1) * (10 * (Nr - 1)) := by
      rw [mul_comm (roundSize Nr N + 1)]
      exact Nat.lt_mul_div_succ _ (by omega)
    have h' : (21 * Nr * N : ℚ) < (roundSize Nr N + 1) * (10 * (Nr - 1)) := by
      have : ((Nr - 1 : ℕ) : ℚ) = Nr - 1 := by push_cast [show 1 ≤ Nr by omega]; ring
      rw [← this]
      exact_mod_cast h
    refine lt_of_mul_lt_mul_right ?_ hd.le
    linarith [exact_eq Nr N h2]
  generalize fl (mult fl Nr * N) = a at *
  generalize exact Nr N = x at *
  constructor
  · have : (roundSize Nr N : ℚ) < size fl Nr N + 1 + 1 := by linarith [b.1, r.1, r.2, c.2]
    have : roundSize Nr N < size fl Nr N + 1 + 1 := by exact_mod_cast this
    omega
  · have : (size fl Nr N : ℚ) < roundSize Nr N + 1 + 1 := by linarith [b.2, r.1, r.2, c.1]
    have : size fl Nr N < roundSize Nr N + 1 + 1 := by exact_mod_cast this
    omega

/-- It may be one less: `2.1*38/37*185` is below 399 in floating-point arithmetic. -/
theorem C168_one_less : size round53 38 185 = 398 ∧ roundSize 38 185 = 399 := by decide +kernel

/-- C168: the mean number of suitable pairs in a round is at least the number of pairs missing, as long as ten or more are: summed
over all sequences of draws. -/
theorem C168_round_mean (fl : ℚ → ℚ) (hfl : RoundsToNearest fl) (l : List ℕ) (hn : l.Nodup) (h2 : 2 ≤ l.length)
    (hl : l.length ≤ 2 ^ 46) (N : ℕ) (hN : 10 ≤ N) :
    N * (streams (rowPairs l) (size fl l.length N)).length ≤
      ((streams (rowPairs l) (size fl l.length N)).map fun d => d.countP inc).sum := by
  have hm : 2 * (rowPairs l).countP inc = l.length * (l.length - 1) := by
    rw [← PairSampling.suitable_length l hn, PairSampling.suitable, List.countP_eq_length_filter]; rfl
  have hA : (rowPairs l).length = l.length * l.length := List.length_product l l
  have hpos : 0 < l.length * l.length := Nat.mul_pos (by omega) (by omega)
  have h := PairSampling.total_suitable (rowPairs l) inc (size fl l.length N)
  have hs : 2 * N * l.length ≤ size fl l.length N * (l.length - 1) := by
    have c := (size_cast hfl l.length N h2).2
    have b := (bounds hfl l.length N h2).1
    have e := exact_eq l.length N h2
    have hNr : (2 : ℚ) ≤ l.length := by exact_mod_cast h2
    have hl' : (l.length : ℚ) ≤ 2 ^ 46 := by exact_mod_cast hl
    have hN' : (10 : ℚ) ≤ N := by exact_mod_cast hN
    have hp : (0 : ℚ) < l.length - 1 := by linarith
    have : (2 * N * l.length : ℚ) ≤ size fl l.length N * ((l.length - 1 : ℕ) : ℚ) := by
      rw [show ((l.length - 1 : ℕ) : ℚ) = l.length - 1 by push_cast [show 1 ≤ l.length by omega]; ring]
      have k := mul_le_mul_of_nonneg_right (b.trans c.le) hp.le
      have k' : 21/10 * l.length * N * (1 - 4 / 2 ^ 53) ≤ (size fl l.length N + 1) * (l.length - 1 : ℚ) := by
        rw [← e]
        linarith
      have g : (10 : ℚ) * l.length ≤ l.length * N := by nlinarith
      have k2 : 21/10 * (l.length * N : ℚ) * (1 - 4 / 2 ^ 53) ≤ size fl l.length N * (l.length - 1 : ℚ) + (l.length - 1) := by
        linarith
      rw [show (2 * N * l.length : ℚ) = 2 * (l.length * N) by ring]
      generalize (size fl l.length N : ℚ) * (l.length - 1) = y at *
      generalize (l.length : ℚ) * N = z at *
      linarith
    exact_mod_cast this
  rw [PairSampling.streams_length]
  rw [hA] at h ⊢
  apply Nat.le_of_mul_le_mul_right _ hpos
  rw [h]
  have key : N * (l.length * l.length) ≤ size fl l.length N * (rowPairs l).countP inc := by
    have := Nat.mul_le_mul_right l.length hs
    have e : size fl l.length N * (l.length - 1) * l.length = 2 * (size fl l.length N * (rowPairs l).countP inc) := by
      rw [Nat.mul_left_comm, hm]; ring
    rw [e] at this
    have e' : 2 * N * l.length * l.length = 2 * (N * (l.length * l.length)) := by ring
    omega
  have := Nat.mul_le_mul_right ((l.length * l.length) ^ size fl l.length N) key
  nlinarith

/-- C168: the sampling ends: the fraction of the sequences of `t + 5 Np` draws that yield no sample of `Np` pairs yet is at most
`2^Np (7/8)^t`. -/
theorem C168_ends (fl : ℚ → ℚ) (hfl : RoundsToNearest fl) (l : List ℕ) (hn : l.Nodup) (h2 : 2 ≤ l.length) (Np : ℕ) (hNp : 1 ≤ Np)
    (t : ℕ) :
    ((streams (rowPairs l) (t + 5 * Np)).countP fun d => (sampled (size fl l.length) Np d).isNone) * 8 ^ t ≤
      2 ^ Np * 7 ^ t * (streams (rowPairs l) (t + 5 * Np)).length := by
  apply PairSampling.C140_ends l hn h2 _ _ _ hNp
  · intro k hk
    have := (C168_enough fl hfl l.length k h2).2
    omega
  · intro k _ h1
    have := (C168_enough fl hfl l.length k h2).1
    omega

example := C168_enough round53 round53_nearest 38 185 (by norm_num)
example := C168_close round53 round53_nearest 38 185 (by norm_num) (by norm_num)
example := C168_round_mean round53 round53_nearest [4, 7, 9] (by decide) (by decide) (by decide) 10 (by norm_num)
example := C168_ends round53 round53_nearest [4, 7, 9] (by decide) (by decide) 2 (by norm_num) 100
/-- Two rows: over four draws for each pair missing. -/
example : size round53 2 1 = 4 ∧ size round53 2 5 = 21 ∧ size round53 1000 1000 = 2102 := by decide +kernel

end PairRounded
end Ade
