import Verif.Model.DifferenceRounded
import Verif.Props.ClosestPair
import Verif.Props.RelationsRounded

/-!
# C159: the records evicted from a history in spite of rounding
-/

set_option autoImplicit false

namespace Ade
namespace DifferenceRounded

open RatioRounded (RoundsToNearest round53 round53_nearest fl_self)
open RelationsRounded (rounding_error_abs fl_eq_zero)
open ClosestPair (drawnPairs Sampled)

/-! ## Numbers that are equal to within a number of roundings -/

/-- One less the largest relative error of a rounding. -/
def q : ℚ := 1 - 1 / 2 ^ 53

/-- `a` and `b` are equal to within `k` roundings: each is at least `(1 - 2^-53)^k` times the other. -/
def Close (k : ℕ) (a b : ℚ) : Prop := a * q ^ k ≤ b ∧ b * q ^ k ≤ a

theorem q_pos : 0 < q := by unfold q; norm_num
theorem q_le_one : q ≤ 1 := by unfold q; norm_num

theorem Close.refl {a : ℚ} : Close 0 a a := by simp [Close]

theorem Close.trans {k l : ℕ} {a b c : ℚ} (h : Close k a b) (h' : Close l b c) : Close (k + l) a c := by
  have hk : 0 ≤ q ^ k := (pow_pos q_pos k).le
  have hl : 0 ≤ q ^ l := (pow_pos q_pos l).le
  constructor
  · calc a * q ^ (k + l) = a * q ^ k * q ^ l := by rw [pow_add, mul_assoc]
      _ ≤ b * q ^ l := mul_le_mul_of_nonneg_right h.1 hl
      _ ≤ c := h'.1
  · calc c * q ^ (k + l) = c * q ^ l * q ^ k := by rw [pow_add]; ring
      _ ≤ b * q ^ k := mul_le_mul_of_nonneg_right h'.2 hk
      _ ≤ a := h.2

theorem Close.mono {k l : ℕ} {a b : ℚ} (h : Close k a b) (ha : 0 ≤ a) (hb : 0 ≤ b) (hkl : k ≤ l) : Close l a b := by
  have : q ^ l ≤ q ^ k := pow_le_pow_of_le_one q_pos.le q_le_one hkl
  exact ⟨(mul_le_mul_of_nonneg_left this ha).trans h.1, (mul_le_mul_of_nonneg_left this hb).trans h.2⟩

theorem Close.add {k : ℕ} {a b c d : ℚ} (h : Close k a b) (h' : Close k c d) : Close k (a + c) (b + d) := by
  constructor
  · rw [add_mul]; exact add_le_add h.1 h'.1
  · rw [add_mul]; exact add_le_add h.2 h'.2

theorem Close.mul {k l : ℕ} {a b c d : ℚ} (h : Close k a b) (h' : Close l c d) (ha : 0 ≤ a) (hb : 0 ≤ b) (hc : 0 ≤ c) (hd : 0 ≤ d) :
    Close (k + l) (a * c) (b * d) := by
  have hl : 0 ≤ q ^ l := (pow_pos q_pos l).le
  constructor
  · calc a * c * q ^ (k + l) = a * q ^ k * (c * q ^ l) := by rw [pow_add]; ring
      _ ≤ b * d := mul_le_mul h.1 h'.1 (mul_nonneg hc hl) hb
  · calc b * d * q ^ (k + l) = b * q ^ k * (d * q ^ l) := by rw [pow_add]; ring
      _ ≤ a * c := mul_le_mul h.2 h'.2 (mul_nonneg hd hl) ha

theorem Close.div {k l : ℕ} {a b c d : ℚ} (h : Close k a b) (h' : Close l c d) (ha : 0 ≤ a) (hb : 0 ≤ b) (hc : 0 < c) (hd : 0 < d) :
    Close (k + l) (a / c) (b / d) := by
  have hl : 0 ≤ q ^ l := (pow_pos q_pos l).le
  constructor
  · rw [div_mul_eq_mul_div, div_le_div_iff₀ hc hd]
    calc a * q ^ (k + l) * d = a * q ^ k * (d * q ^ l) := by rw [pow_add]; ring
      _ ≤ b * c := mul_le_mul h.1 h'.2 (mul_nonneg hd.le hl) hb
  · rw [div_mul_eq_mul_div, div_le_div_iff₀ hd hc]
    calc b * q ^ (k + l) * c = b * q ^ k * (c * q ^ l) := by rw [pow_add]; ring
      _ ≤ a * d := mul_le_mul h.2 h'.1 (mul_nonneg hc.le hl) ha

theorem fl_nonneg {fl : ℚ → ℚ} (hfl : RoundsToNearest fl) {x : ℚ} (hx : 0 ≤ x) : 0 ≤ fl x :=
  Rounding.le_nearest (hfl x) (Rounding.repr_zero 53) hx

theorem close_abs {fl : ℚ → ℚ} (hfl : RoundsToNearest fl) (x : ℚ) : Close 1 |fl x| |x| := by
  have h := rounding_error_abs hfl x
  have h1 : |fl x| ≤ |fl x - x| + |x| := by
    have : fl x = (fl x - x) + x := by ring
    conv_lhs => rw [this]
    exact abs_add_le _ _
  have h2 : |x| ≤ |fl x - x| + |fl x| := by
    have : x = -(fl x - x) + fl x := by ring
    conv_lhs => rw [this]
    exact (abs_add_le _ _).trans (by rw [abs_neg])
  have h3 := abs_nonneg x
  unfold Close q
  generalize |fl x - x| = e at *
  generalize |fl x| = a at *
  generalize |x| = b at *
  norm_num at *
  constructor <;> linarith

theorem close_fl {fl : ℚ → ℚ} (hfl : RoundsToNearest fl) {x : ℚ} (hx : 0 ≤ x) : Close 1 (fl x) x := by
  have := close_abs hfl x
  rwa [abs_of_nonneg hx, abs_of_nonneg (fl_nonneg hfl hx)] at this

/-! ## The sum -/

/-- The columns that are added. -/
def Order.columns {n : ℕ} : Order n → List (Fin (n + 1))
  | .column c => [c]
  | .add a b => a.columns ++ b.columns

/-- The number of additions. -/
def Order.adds {n : ℕ} : Order n → ℕ
  | .column _ => 0
  | .add a b => a.adds + b.adds + 1

theorem Order.length_columns {n : ℕ} (o : Order n) : o.columns.length = o.adds + 1 := by
  induction o with
  | column c => rfl
  | add a b iha ihb => simp only [columns, adds, List.length_append, iha, ihb]; omega

/-- Every column is added once. -/
def Order.Complete {n : ℕ} (o : Order n) : Prop := o.columns.Perm (List.finRange (n + 1))

theorem sum_close {n : ℕ} {fl : ℚ → ℚ} (hfl : RoundsToNearest fl) {f g : Fin (n + 1) → ℚ} {k : ℕ} (hf : ∀ c, 0 ≤ f c)
    (hg : ∀ c, 0 ≤ g c) (h : ∀ c, Close k (f c) (g c)) (o : Order n) :
    0 ≤ sum fl f o ∧ 0 ≤ (o.columns.map g).sum ∧ Close (k + o.adds) (sum fl f o) (o.columns.map g).sum := by
  induction o with
  | column c => simpa [sum, Order.columns, Order.adds] using ⟨hf c, hg c, h c⟩
  | add a b iha ihb =>
    obtain ⟨a1, a2, a3⟩ := iha
    obtain ⟨b1, b2, b3⟩ := ihb
    simp only [sum, Order.columns, Order.adds, List.map_append, List.sum_append]
    have hn := add_nonneg a1 b1
    refine ⟨fl_nonneg hfl hn, add_nonneg a2 b2, ?_⟩
    have := (close_fl hfl hn).trans ((a3.mono a1 a2 (l := k + (a.adds + b.adds)) (by omega)).add
      (b3.mono b1 b2 (l := k + (a.adds + b.adds)) (by omega)))
    rwa [show 1 + (k + (a.adds + b.adds)) = k + (a.adds + b.adds + 1) by omega] at this

theorem sum_complete {n : ℕ} (g : Fin (n + 1) → ℚ) (o : Order n) (ho : o.Complete) : (o.columns.map g).sum = ∑ c, g c := by
  rw [(ho.map g).sum_eq, Fin.sum_univ_def]

theorem adds_complete {n : ℕ} (o : Order n) (ho : o.Complete) : o.adds = n := by
  have h1 := o.length_columns
  have h2 := ho.length_eq
  simp at h2
  omega

/-! ## The difference of a pair -/

/-- The documented difference of a pair: sum of scaled squares over mean score, less for a row that never was in the
population. -/
def exact {n : ℕ} (X : ℕ → Fin (n + 1) → ℚ) (S : Fin (n + 1) → ℚ) (Kn : Finset ℕ) (penalty : ℚ) (p : ℕ × ℕ) : ℚ :=
  (∑ c, (X p.1 c - X p.2 c) ^ 2 * S c) / ((X p.1 0 + X p.2 0) / 2) / (if p.1 ∈ Kn then penalty else 1)

theorem term_close {n : ℕ} {fl : ℚ → ℚ} (hfl : RoundsToNearest fl) (X : ℕ → Fin (n + 1) → ℚ) (S : Fin (n + 1) → ℚ) (hS : ∀ c, 0 ≤ S c)
    (p : ℕ × ℕ) (c : Fin (n + 1)) : 0 ≤ term fl X S p c ∧ Close 4 (term fl X S p c) ((X p.1 c - X p.2 c) ^ 2 * S c) := by
  unfold term
  dsimp only
  generalize X p.1 c - X p.2 c = d
  have h1 := close_abs hfl d
  have h2 := h1.mul h1 (abs_nonneg _) (abs_nonneg _) (abs_nonneg _) (abs_nonneg _)
  rw [abs_mul_abs_self, abs_mul_abs_self] at h2
  have hn : 0 ≤ fl d * fl d := mul_self_nonneg _
  have h3 := (close_fl hfl hn).trans h2
  have hn' := fl_nonneg hfl hn
  have h4 := h3.mul (Close.refl (a := S c)) hn' (mul_self_nonneg _) (hS c) (hS c)
  have hn'' := mul_nonneg hn' (hS c)
  refine ⟨fl_nonneg hfl hn'', ?_⟩
  have := (close_fl hfl hn'').trans h4
  rwa [← pow_two d] at this

theorem fl_pos {fl : ℚ → ℚ} (hfl : RoundsToNearest fl) {x : ℚ} (hx : 0 < x) : 0 < fl x := by
  refine lt_of_le_of_ne (fl_nonneg hfl hx.le) fun h => ?_
  have := (fl_eq_zero hfl x).1 h.symm
  linarith

theorem meanScore_close {n : ℕ} {fl : ℚ → ℚ} (hfl : RoundsToNearest fl) (X : ℕ → Fin (n + 1) → ℚ) (p : ℕ × ℕ)
    (h : 0 < X p.1 0 + X p.2 0) : 0 < meanScore fl X p ∧ Close 2 (meanScore fl X p) ((X p.1 0 + X p.2 0) / 2) := by
  unfold meanScore
  have h1 := fl_pos hfl h
  have h2 := (close_fl hfl h.le).div (Close.refl (a := 2)) h1.le h.le two_pos two_pos
  have h3 : 0 < fl (X p.1 0 + X p.2 0) / 2 := by linarith
  exact ⟨fl_pos hfl h3, (close_fl hfl h3.le).trans h2⟩

/-- C159: the computed difference of a pair is the documented one to within `n + 8` roundings for `n` parameters, for
any order of the sum, if the scores of the pair are not both zero. -/
theorem C159_difference {n : ℕ} {fl : ℚ → ℚ} (hfl : RoundsToNearest fl) (o : Order n) (ho : o.Complete) (X : ℕ → Fin (n + 1) → ℚ)
    (S : Fin (n + 1) → ℚ) (hS : ∀ c, 0 ≤ S c) (Kn : Finset ℕ) (penalty : ℚ) (hpen : 0 < penalty) (p : ℕ × ℕ)
    (h : 0 < X p.1 0 + X p.2 0) :
    ∃ D, difference fl o X S Kn penalty p = .fin D ∧ 0 ≤ D ∧ Close (n + 8) D (exact X S Kn penalty p) := by
  obtain ⟨s1, s2, s3⟩ := sum_close hfl (f := term fl X S p) (g := fun c => (X p.1 c - X p.2 c) ^ 2 * S c)
    (fun c => (term_close hfl X S hS p c).1) (fun c => mul_nonneg (sq_nonneg _) (hS c)) (fun c => (term_close hfl X S hS p c).2) o
  rw [sum_complete _ o ho, adds_complete o ho] at s3
  rw [sum_complete _ o ho] at s2
  obtain ⟨m1, m2⟩ := meanScore_close hfl X p h
  have hm : 0 < (X p.1 0 + X p.2 0) / 2 := by linarith
  unfold difference exact divide
  rw [if_neg m1.ne']
  simp only [divideBy]
  have hw : 0 < (if p.1 ∈ Kn then penalty else 1) := by split_ifs <;> linarith
  generalize (if p.1 ∈ Kn then penalty else 1) = w at *
  have d1 := s3.div m2 s1 s2 m1 hm
  have n1 := div_nonneg s1 m1.le
  have n2 := div_nonneg s2 hm.le
  have d2 := (close_fl hfl n1).trans d1
  have d3 := d2.div (Close.refl (a := w)) (fl_nonneg hfl n1) n2 hw hw
  have n3 := div_nonneg (fl_nonneg hfl n1) hw.le
  refine ⟨_, rfl, fl_nonneg hfl n3, ?_⟩
  have := (close_fl hfl n3).trans d3
  rwa [show 1 + (1 + (4 + n + 2) + 0) = n + 8 by omega] at this

/-- C159: no difference is computed for the same values and score only. -/
theorem C159_zero_iff {n : ℕ} {fl : ℚ → ℚ} (hfl : RoundsToNearest fl) (o : Order n) (ho : o.Complete) (X : ℕ → Fin (n + 1) → ℚ)
    (S : Fin (n + 1) → ℚ) (hS : ∀ c, 0 < S c) (Kn : Finset ℕ) (penalty : ℚ) (hpen : 0 < penalty) (p : ℕ × ℕ)
    (h : 0 < X p.1 0 + X p.2 0) : difference fl o X S Kn penalty p = .fin 0 ↔ X p.1 = X p.2 := by
  obtain ⟨D, h1, h2, h3⟩ := C159_difference hfl o ho X S (fun c => (hS c).le) Kn penalty hpen p h
  have hm : 0 < (X p.1 0 + X p.2 0) / 2 := by linarith
  have hw : 0 < (if p.1 ∈ Kn then penalty else 1) := by split_ifs <;> linarith
  have hz : exact X S Kn penalty p = 0 ↔ X p.1 = X p.2 := by
    unfold exact
    rw [div_eq_zero_iff, div_eq_zero_iff, or_iff_left hw.ne', or_iff_left hm.ne',
      Finset.sum_eq_zero_iff_of_nonneg fun c _ => mul_nonneg (sq_nonneg _) (hS c).le]
    constructor
    · intro hc
      funext c
      have := hc c (Finset.mem_univ c)
      rw [mul_eq_zero, or_iff_left (hS c).ne', sq_eq_zero_iff] at this
      linarith
    · intro he c _
      rw [he, sub_self]; ring
  rw [h1, ← hz, PyFloat.fin.injEq]
  have hq := pow_pos q_pos (n + 8)
  constructor
  · intro h0
    have a1 := h3.1
    have a2 := h3.2
    rw [h0] at a1 a2
    nlinarith
  · intro h0
    have a1 := h3.1
    rw [h0] at a1
    nlinarith

/-- C159: the record evicted is one of a pair of records of which, but for `2n + 16` roundings, no examined pair is closer by
the documented difference.  Examined are all pairs if these are fewer than `Np`, else the first `Np` increasing pairs drawn. -/
theorem C159_closest {n : ℕ} {fl : ℚ → ℚ} (hfl : RoundsToNearest fl) (o : Order n) (ho : o.Complete) (X : ℕ → Fin (n + 1) → ℚ)
    (S : Fin (n + 1) → ℚ) (hS : ∀ c, 0 < S c) (Kn : Finset ℕ) (penalty : ℚ) (hpen : 0 < penalty) (l : List ℕ) (hn : l.Nodup)
    (hlen : 2 ≤ l.length) (hsse : ∀ k ∈ l, 0 < X k 0) (Np : ℕ) (hNp : 0 < Np) (rounds : List (List (ℕ × ℕ)))
    (hs : Sampled l Np rounds) :
    ∃ r r', ClosestPair.call l Np rounds (difference fl o X S Kn penalty) = some r ∧ r ∈ l ∧ r' ∈ l ∧ r < r' ∧
      ∀ a ∈ l, ∀ b ∈ l, a < b → (l.length * (l.length - 1) / 2 < Np ∨ (a, b) ∈ drawnPairs Np rounds) →
        exact X S Kn penalty (r, r') * (1 - 1 / 2 ^ 53) ^ (2 * n + 16) ≤ exact X S Kn penalty (a, b) ∧
        (X a = X b → X r = X r') := by
  obtain ⟨r, r', h1, h2, h3, h4, h5, h6⟩ := ClosestPair.C43_chooses_from_closest_pair l hn hlen Np hNp rounds hs
    (difference fl o X S Kn penalty)
  have hfin : ∀ a ∈ l, ∀ b ∈ l, ∃ D, difference fl o X S Kn penalty (a, b) = .fin D ∧ 0 ≤ D ∧
      Close (n + 8) D (exact X S Kn penalty (a, b)) := fun a ha b hb =>
    C159_difference hfl o ho X S (fun c => (hS c).le) Kn penalty hpen (a, b) (add_pos (hsse a ha) (hsse b hb))
  refine ⟨r, r', h1, h2, h3, h4, ?_⟩
  intro a ha b hb hab hex
  have hlt : (difference fl o X S Kn penalty (a, b)).lt (difference fl o X S Kn penalty (r, r')) = false := by
    by_cases hN : l.length * (l.length - 1) / 2 < Np
    · refine h5 hN ?_ a ha b hb hab
      intro a ha b hb _ hc
      obtain ⟨D, hD, _⟩ := hfin a ha b hb
      rw [hD] at hc; cases hc
    · refine (h6 (by omega)).2 ?_ (a, b) (hex.resolve_left hN)
      intro p hp hc
      obtain ⟨m1, m2⟩ := List.mem_filter.1 (List.mem_of_mem_take hp)
      obtain ⟨rd, hr1, hr2⟩ := List.mem_flatten.1 m1
      obtain ⟨k1, k2⟩ := hs.rows rd hr1 p hr2
      obtain ⟨D, hD, _⟩ := hfin p.1 k1 p.2 k2
      rw [hD] at hc; cases hc
  obtain ⟨D, d1, d2, d3⟩ := hfin a ha b hb
  obtain ⟨D', e1, e2, e3⟩ := hfin r h2 r' h3
  rw [d1, e1] at hlt
  have hle : D' ≤ D := by simpa [PyFloat.lt] using hlt
  constructor
  · have hp := (pow_pos q_pos (n + 8)).le
    change exact X S Kn penalty (r, r') * q ^ (2 * n + 16) ≤ _
    calc exact X S Kn penalty (r, r') * q ^ (2 * n + 16)
        = exact X S Kn penalty (r, r') * q ^ (n + 8) * q ^ (n + 8) := by
          rw [mul_assoc, ← pow_add]; congr 2; omega
      _ ≤ D' * q ^ (n + 8) := mul_le_mul_of_nonneg_right e3.2 hp
      _ ≤ D * q ^ (n + 8) := mul_le_mul_of_nonneg_right hle hp
      _ ≤ _ := d3.1
  · intro hxy
    have hz := (C159_zero_iff hfl o ho X S hS Kn penalty hpen (a, b) (add_pos (hsse a ha) (hsse b hb))).2 hxy
    rw [d1, PyFloat.fin.injEq] at hz
    refine (C159_zero_iff hfl o ho X S hS Kn penalty hpen (r, r') (add_pos (hsse r h2) (hsse r' h3))).1 ?_
    rw [e1, PyFloat.fin.injEq]; linarith

/-! ## The scaling -/

theorem foldl_add_nonneg {fl : ℚ → ℚ} (hfl : RoundsToNearest fl) (l : List ℚ) (h : ∀ x ∈ l, 0 ≤ x) (s : ℚ) (hs : 0 ≤ s) :
    0 ≤ l.foldl (fun s x => fl (s + x)) s := by
  induction l generalizing s with
  | nil => exact hs
  | cons x l ih =>
    exact ih (fun y hy => h y (by simp [hy])) _ (fl_nonneg hfl (add_nonneg hs (h x (by simp))))

theorem var_nonneg {fl : ℚ → ℚ} (hfl : RoundsToNearest fl) (l : List ℚ) : 0 ≤ var fl l := by
  unfold var mean
  refine fl_nonneg hfl (div_nonneg (foldl_add_nonneg hfl _ ?_ 0 le_rfl) (Nat.cast_nonneg _))
  intro x hx
  obtain ⟨y, -, rfl⟩ := List.mem_map.1 hx
  exact fl_nonneg hfl (mul_self_nonneg _)

/-- C159: the computed scaling of a column is always a positive number, at most `10^20` to within four roundings. -/
theorem C159_scaling {n : ℕ} {fl : ℚ → ℚ} (hfl : RoundsToNearest fl) (X : ℕ → Fin (n + 1) → ℚ) (l : List ℕ) (c : Fin (n + 1)) :
    0 < scaling fl X l c ∧ scaling fl X l c * (1 - 1 / 2 ^ 53) ^ 4 ≤ 10 ^ 20 := by
  have h1 : (0 : ℚ) < 1 / 10 ^ 20 := by norm_num
  have h2 := fl_pos hfl h1
  have h3 := var_nonneg hfl (l.map fun k => X k c)
  unfold scaling
  generalize var fl (l.map fun k => X k c) = v at *
  have h4 : 0 < v + fl (1 / 10 ^ 20) := by linarith
  have h5 := fl_pos hfl h4
  have h6 := one_div_pos.2 h5
  refine ⟨fl_pos hfl h6, ?_⟩
  have a1 := (close_fl hfl h1.le).2
  have a2 := (close_fl hfl h4.le).2
  have a3 := (close_fl hfl h6.le).1
  generalize fl (1 / 10 ^ 20) = e at *
  generalize fl (v + e) = w at *
  generalize fl (1 / w) = z at *
  rw [pow_one] at a1 a2 a3
  change z * q ^ 4 ≤ 10 ^ 20
  have hq := q_pos
  have hq1 := q_le_one
  have b1 : q * q * (1 / 10 ^ 20) ≤ w := by nlinarith
  have b2 : z * q ≤ 1 / (q * q * (1 / 10 ^ 20)) := a3.trans (one_div_le_one_div_of_le (by positivity) b1)
  have b3 : z * q * (q * q) ≤ 10 ^ 20 := by
    have := mul_le_mul_of_nonneg_right b2 (mul_pos hq hq).le
    have e : 1 / (q * q * (1 / 10 ^ 20)) * (q * q) = 10 ^ 20 := by field_simp
    rwa [e] at this
  calc z * q ^ 4 = z * q * (q * q) * q := by ring
    _ ≤ 10 ^ 20 * 1 := mul_le_mul b3 hq1 hq.le (by norm_num)
    _ = 10 ^ 20 := mul_one _

/-- The mean of a column. -/
def average (l : List ℚ) : ℚ := l.sum / l.length

/-- The variance of a column. -/
def variance (l : List ℚ) : ℚ := average (l.map fun x => (x - average l) ^ 2)

theorem pow_bound (k : ℕ) (hk : k ≤ 2 ^ 52) : (1 + 1 / 2 ^ 53 : ℚ) ^ k ≤ 1 + k / 2 ^ 52 := by
  induction k with
  | zero => simp
  | succ k ih =>
    have h := ih (by omega)
    have hk' : (k : ℚ) ≤ 2 ^ 52 := by exact_mod_cast (by omega : k ≤ 2 ^ 52)
    have hk0 : (0 : ℚ) ≤ k := Nat.cast_nonneg k
    rw [pow_succ]
    push_cast
    clear ih
    generalize (1 + 1 / 2 ^ 53 : ℚ) ^ k = w at *
    generalize (k : ℚ) = r at *
    have h2 : w * (1 + 1 / 2 ^ 53) ≤ (1 + r / 2 ^ 52) * (1 + 1 / 2 ^ 53) := mul_le_mul_of_nonneg_right h (by norm_num)
    refine h2.trans ?_
    linarith

/-- The sum of the rows is right to within a rounding for each row. -/
theorem sumRows_error {fl : ℚ → ℚ} (hfl : RoundsToNearest fl) (l : List ℚ) :
    |sumRows fl l - l.sum| ≤ (l.map abs).sum * ((1 + 1 / 2 ^ 53) ^ l.length - 1) := by
  induction l using List.reverseRecOn with
  | nil => simp [sumRows]
  | append_singleton l x ih =>
    have e : sumRows fl (l ++ [x]) = fl (sumRows fl l + x) := by simp [sumRows, List.foldl_append]
    rw [e]
    simp only [List.sum_append, List.sum_singleton, List.map_append, List.map_singleton, List.length_append, List.length_singleton]
    rw [pow_succ (1 + 1 / 2 ^ 53 : ℚ) l.length]
    have h1 := rounding_error_abs hfl (sumRows fl l + x)
    have hs : |l.sum| ≤ (l.map abs).sum := by
      clear ih e h1
      induction l with
      | nil => simp
      | cons a l ih => simp only [List.sum_cons, List.map_cons]; exact (abs_add_le _ _).trans (by linarith)
    have hw : (1 : ℚ) ≤ (1 + 1 / 2 ^ 53) ^ l.length := one_le_pow₀ (by norm_num)
    have hx := abs_nonneg x
    generalize sumRows fl l = s at *
    generalize fl (s + x) = s' at *
    generalize l.sum = t at *
    generalize (l.map abs).sum = A at *
    generalize (1 + 1 / 2 ^ 53 : ℚ) ^ l.length = w at *
    have h2 : |s' - (t + x)| ≤ |s' - (s + x)| + |s - t| := by
      have : s' - (t + x) = (s' - (s + x)) + (s - t) := by ring
      rw [this]; exact abs_add_le _ _
    have h3 : |s + x| ≤ |s - t| + |t| + |x| := by
      have : s + x = (s - t) + t + x := by ring
      rw [this]; exact abs_add_three _ _ _
    have h4 : |s + x| ≤ (A + |x|) * w := by nlinarith
    have h5 : |s' - (s + x)| ≤ (A + |x|) * w / 2 ^ 53 := h1.trans (div_le_div_of_nonneg_right h4 (by norm_num))
    have h6 : (A + |x|) * (w * (1 + 1 / 2 ^ 53) - 1) = (A + |x|) * w / 2 ^ 53 + A * (w - 1) + |x| * (w - 1) := by ring
    rw [h6]
    have : 0 ≤ |x| * (w - 1) := mul_nonneg hx (by linarith)
    linarith

/-- The sum of numbers that are not negative is right to within a rounding for each row. -/
theorem sumRows_close {fl : ℚ → ℚ} (hfl : RoundsToNearest fl) (k : ℕ) (f g : ℚ → ℚ) (hf : ∀ x, 0 ≤ f x) (hg : ∀ x, 0 ≤ g x)
    (h : ∀ x, Close k (f x) (g x)) (l : List ℚ) :
    0 ≤ sumRows fl (l.map f) ∧ 0 ≤ (l.map g).sum ∧ Close (k + l.length) (sumRows fl (l.map f)) (l.map g).sum := by
  induction l using List.reverseRecOn with
  | nil => simp [sumRows, Close]
  | append_singleton l x ih =>
    obtain ⟨h1, h2, h3⟩ := ih
    have e : sumRows fl ((l ++ [x]).map f) = fl (sumRows fl (l.map f) + f x) := by simp [sumRows, List.foldl_append]
    rw [e]
    simp only [List.map_append, List.sum_append, List.map_singleton, List.sum_singleton, List.length_append, List.length_singleton]
    have hn := add_nonneg h1 (hf x)
    refine ⟨fl_nonneg hfl hn, add_nonneg h2 (hg x), ?_⟩
    have := (close_fl hfl hn).trans (h3.add ((h x).mono (hf x) (hg x) (l := k + l.length) (by omega)))
    rwa [show 1 + (k + l.length) = k + (l.length + 1) by omega] at this

/-- Squares of the differences from another number than the mean. -/
theorem sum_squares (l : List ℚ) (hl : l ≠ []) (m : ℚ) :
    (l.map fun x => (x - m) ^ 2).sum / l.length = variance l + (m - average l) ^ 2 := by
  have hN : (l.length : ℚ) ≠ 0 := by simpa using hl
  have key : ∀ (l : List ℚ) (m : ℚ), (l.map fun x => (x - m) ^ 2).sum = (l.map fun x => x ^ 2).sum - 2 * m * l.sum + l.length * m ^ 2 := by
    intro l m
    induction l with
    | nil => simp
    | cons x l ih => simp only [List.map_cons, List.sum_cons, ih, List.length_cons]; push_cast; ring
  have hv : variance l = (l.map fun x => (x - average l) ^ 2).sum / l.length := by simp [variance, average]
  rw [hv, key, key]
  have ha : l.sum = average l * l.length := by unfold average; field_simp
  rw [ha]
  field_simp
  ring

/-- C159: the computed scaling of a column is, to within `N + 6` roundings for `N` records, the inverse of the variance of the
column plus `10^-20` plus the square of the error of the computed mean, which is at most `(N + 1)/2^52` of the mean size of the values. -/
theorem C159_scaling_accurate {n : ℕ} {fl : ℚ → ℚ} (hfl : RoundsToNearest fl) (X : ℕ → Fin (n + 1) → ℚ) (l : List ℕ) (hl : l ≠ [])
    (hN : l.length < 2 ^ 52) (c : Fin (n + 1)) :
    ∃ e, |e| ≤ average (l.map fun k => |X k c|) * (l.length + 1) / 2 ^ 52 ∧
      Close (l.length + 6) (scaling fl X l c) (1 / (variance (l.map fun k => X k c) + e ^ 2 + 1 / 10 ^ 20)) := by
  have hx : l.map (fun k => |X k c|) = (l.map fun k => X k c).map abs := by simp
  rw [hx]
  have hlen : l.length = (l.map fun k => X k c).length := by simp
  unfold scaling
  rw [hlen] at hN ⊢
  have hl' : (l.map fun k => X k c) ≠ [] := by simpa using hl
  generalize (l.map fun k => X k c) = v at *
  clear hx hlen hl
  have hv0 : (0 : ℚ) < v.length := by exact_mod_cast List.length_pos_iff.2 hl'
  refine ⟨mean fl v - average v, ?_, ?_⟩
  · have h1 := sumRows_error hfl v
    have h2 := rounding_error_abs hfl (sumRows fl v / v.length)
    have hp := pow_bound (v.length + 1) (by omega)
    have hw : (1 : ℚ) ≤ (1 + 1 / 2 ^ 53) ^ v.length := one_le_pow₀ (by norm_num)
    rw [pow_succ (1 + 1 / 2 ^ 53 : ℚ) v.length] at hp
    push_cast at hp
    have hs : |v.sum| ≤ (v.map abs).sum := by
      clear h1 h2 hp hw hN hl' hv0
      induction v with
      | nil => simp
      | cons a l ih => simp only [List.sum_cons, List.map_cons]; exact (abs_add_le _ _).trans (by linarith)
    unfold mean average
    rw [List.length_map]
    generalize sumRows fl v = s at *
    generalize fl (s / v.length) = r at *
    generalize v.sum = t at *
    have hA : 0 ≤ (v.map abs).sum := (abs_nonneg _).trans hs
    generalize (v.map abs).sum = A at *
    generalize (1 + 1 / 2 ^ 53 : ℚ) ^ v.length = w at *
    generalize (v.length : ℚ) = N at *
    have h3 : |s| ≤ A * w := by
      have : s = (s - t) + t := by ring
      rw [this]; refine (abs_add_le _ _).trans ?_
      nlinarith
    have h4 : |r - t / N| ≤ |r - s / N| + |s - t| / N := by
      have : r - t / N = (r - s / N) + (s - t) / N := by ring
      rw [this]; refine (abs_add_le _ _).trans ?_
      rw [abs_div, abs_of_pos hv0]
    have h5 : |s / N| / 2 ^ 53 ≤ A * w / N / 2 ^ 53 := by
      rw [abs_div, abs_of_pos hv0]
      exact div_le_div_of_nonneg_right (div_le_div_of_nonneg_right h3 hv0.le) (by norm_num)
    have h6 : |s - t| / N ≤ A * (w - 1) / N := div_le_div_of_nonneg_right h1 hv0.le
    have h7 : A * w / N / 2 ^ 53 + A * (w - 1) / N = A / N * (w * (1 + 1 / 2 ^ 53) - 1) := by ring
    have h8 : A / N * (w * (1 + 1 / 2 ^ 53) - 1) ≤ A / N * ((N + 1) / 2 ^ 52) :=
      mul_le_mul_of_nonneg_left (by linarith) (div_nonneg hA hv0.le)
    have h9 : A / N * ((N + 1) / 2 ^ 52) = A / N * (N + 1) / 2 ^ 52 := by ring
    linarith
  · rw [← sum_squares v hl' (mean fl v)]
    have hvar : var fl v = fl (sumRows fl (v.map fun x => fl (fl (x - mean fl v) * fl (x - mean fl v))) / v.length) := by
      simp [var, mean]
    obtain ⟨s1, s2, s3⟩ := sumRows_close hfl 3 (fun x => fl (fl (x - mean fl v) * fl (x - mean fl v))) (fun x => (x - mean fl v) ^ 2)
      (fun x => fl_nonneg hfl (mul_self_nonneg _)) (fun x => sq_nonneg _) (fun x => by
        have h1 := close_abs hfl (x - mean fl v)
        have h2 := h1.mul h1 (abs_nonneg _) (abs_nonneg _) (abs_nonneg _) (abs_nonneg _)
        rw [abs_mul_abs_self, abs_mul_abs_self, ← pow_two (x - mean fl v)] at h2
        exact (close_fl hfl (mul_self_nonneg _)).trans h2) v
    rw [hvar]
    generalize (v.map fun x => (x - mean fl v) ^ 2).sum = T at *
    generalize sumRows fl (v.map fun x => fl (fl (x - mean fl v) * fl (x - mean fl v))) = T' at *
    have d1 := s3.div (Close.refl (a := (v.length : ℚ))) s1 s2 hv0 hv0
    have n1 := div_nonneg s1 hv0.le
    have n1' := div_nonneg s2 hv0.le
    have d2 := (close_fl hfl n1).trans d1
    have n2 := fl_nonneg hfl n1
    have e0 : (0 : ℚ) < 1 / 10 ^ 20 := by norm_num
    have e1 := fl_pos hfl e0
    have d3 := d2.add ((close_fl hfl e0.le).mono e1.le e0.le (l := 1 + (3 + v.length + 0)) (by omega))
    generalize T' / (v.length : ℚ) = a at *
    generalize T / (v.length : ℚ) = b at *
    have n3 : 0 < fl a + fl (1 / 10 ^ 20) := by linarith
    have n3' : 0 < b + 1 / 10 ^ 20 := by linarith
    have d4 := (close_fl hfl n3.le).trans d3
    have n4 := fl_pos hfl n3
    have d5 := (Close.refl (a := 1)).div d4 zero_le_one zero_le_one n4 n3'
    have := (close_fl hfl (one_div_pos.2 n4).le).trans d5
    rwa [show 1 + (0 + (1 + (1 + (3 + v.length + 0)))) = v.length + 6 by omega] at this

/-- C159 for a call that computes the scaling: the record evicted is one of a pair of which, but for `2n + 16` roundings, no examined
pair is closer by the documented difference with that scaling; and one with a twin if there are twins. -/
theorem C159_call {n : ℕ} {fl : ℚ → ℚ} (hfl : RoundsToNearest fl) (o : Order n) (ho : o.Complete) (X : ℕ → Fin (n + 1) → ℚ)
    (Kn : Finset ℕ) (pen : ℕ → ℚ) (hpen : ∀ m, 0 < pen m) (l : List ℕ) (hn : l.Nodup)
    (hlen : 2 ≤ l.length) (hsse : ∀ k ∈ l, 0 < X k 0) (Np : ℕ) (hNp : 0 < Np) (rounds : List (List (ℕ × ℕ)))
    (hs : Sampled l Np rounds) :
    ∃ r r' m, call fl o X Kn l Np rounds pen = some r ∧ r ∈ l ∧ r' ∈ l ∧ r < r' ∧
      ∀ a ∈ l, ∀ b ∈ l, a < b → (l.length * (l.length - 1) / 2 < Np ∨ (a, b) ∈ drawnPairs Np rounds) →
        exact X (scaling fl X l) Kn (pen m) (r, r') * (1 - 1 / 2 ^ 53) ^ (2 * n + 16) ≤
          exact X (scaling fl X l) Kn (pen m) (a, b) ∧ (X a = X b → X r = X r') := by
  obtain ⟨r, r', h1, h2, h3, h4, h5⟩ := C159_closest hfl o ho X (scaling fl X l) (fun c => (C159_scaling hfl X l c).1) Kn
    (pen (ClosestPair.examined l Np rounds).length) (hpen _) l hn hlen hsse Np hNp rounds hs
  exact ⟨r, r', _, h1, h2, h3, h4, h5⟩

/-- The factor of `C159_closest` is close to one. -/
theorem factor_close (k : ℕ) : 1 - k / 2 ^ 53 ≤ (1 - 1 / 2 ^ 53 : ℚ) ^ k := by
  have := one_add_mul_le_pow (a := (-(1 / 2 ^ 53) : ℚ)) (by norm_num) k
  calc (1 - k / 2 ^ 53 : ℚ) = 1 + k * (-(1 / 2 ^ 53)) := by ring
    _ ≤ _ := this
    _ = _ := by rw [← sub_eq_add_neg]

/-! ## Cases -/

/-- Four records with one parameter; the last two have the same score and value. -/
def exRows : ℕ → Fin 2 → ℚ := fun k c => if c = 0 then ([1, 2, 3, 3].getD k 1) else ([1 / 10, 2 / 10, 7 / 10, 7 / 10].getD k 0)

def exOrder : Order 1 := .add (.column 1) (.column 0)

theorem exOrder_complete : exOrder.Complete := by unfold Order.Complete; decide

theorem exRows_pos : ∀ k, 0 < exRows k 0 := by
  intro k
  unfold exRows
  rw [if_pos rfl]
  rcases k with _ | _ | _ | _ | k <;> norm_num [List.getD]

example := C159_difference round53_nearest exOrder exOrder_complete exRows (fun _ => 3) (by intro; norm_num) {0} 2 (by norm_num) (0, 1)
  (add_pos (exRows_pos 0) (exRows_pos 1))

example := C159_zero_iff round53_nearest exOrder exOrder_complete exRows (fun _ => 3) (by intro; norm_num) {0} 2 (by norm_num) (2, 3)
  (add_pos (exRows_pos 2) (exRows_pos 3))

example : difference round53 exOrder exRows (fun _ => 3) {0} 2 (2, 3) = .fin 0 ∧
    (difference round53 exOrder exRows (fun _ => 3) {0} 2 (0, 1) ≠ .fin (exact exRows (fun _ => 3) {0} 2 (0, 1))) ∧
    ClosestPair.call [0, 1, 2, 3] 10000 [] (difference round53 exOrder exRows (fun _ => 3) {0} 2) = some 2 := by decide +kernel

example := C159_closest round53_nearest exOrder exOrder_complete exRows (fun _ => 3) (by intro; norm_num) {0} 2 (by norm_num)
  [1, 2, 3] (by decide) (by decide) (fun k _ => exRows_pos k) 2 (by decide) [[(2, 1), (1, 3), (3, 3)], [(1, 2)]] ⟨by decide, by decide⟩

example := C159_scaling_accurate round53_nearest exRows [1, 2, 3] (by decide) (by decide) 1

example := C159_scaling round53_nearest exRows [1, 2, 3] 0

example : scaling round53 exRows [0, 1] 0 = 4 ∧
    call round53 exOrder exRows {0} [0, 1, 2, 3] 10000 [] (fun _ => 2) = some 2 := by decide +kernel

example := C159_call round53_nearest exOrder exOrder_complete exRows {0} (fun _ => 2) (by intro; norm_num)
  [1, 2, 3] (by decide) (by decide) (fun k _ => exRows_pos k) 2 (by decide) [[(2, 1), (1, 3), (3, 3)], [(1, 2)]] ⟨by decide, by decide⟩

example := factor_close 20

end DifferenceRounded
end Ade
