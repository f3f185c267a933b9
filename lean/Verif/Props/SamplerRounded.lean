import Verif.Model.SamplerRounded
import Verif.Props.FRounded
import Verif.Props.Sampler
import Mathlib.Data.Nat.Sqrt
import Mathlib.Data.Int.Log

/-!
# Property C134: the sampler's choice in spite of rounding

`ProbabilitySampler` (ade/population.py:254-286) in floats of 53 bits, with any rule for ties and any rounding of the
square root.
-/

set_option autoImplicit false

namespace Ade
namespace SamplerRounded

open Rounding FRounded

/-- The arithmetic of floats: results are rounded to nearest, with any rule for ties; the square root is a float that no
other float separates from the exact one. -/
structure Floats (A : Arith) : Prop where
  rnd : ∀ x, Nearest 53 x (A.rnd x)
  sqrt_repr : ∀ x, 0 ≤ x → Repr 53 (A.sqrt x)
  le_sqrt : ∀ x z, 0 ≤ z → Repr 53 z → z * z ≤ x → z ≤ A.sqrt x
  sqrt_le : ∀ x z, 0 ≤ x → 0 ≤ z → Repr 53 z → x ≤ z * z → A.sqrt x ≤ z

/-- A result `random.random()` can have. -/
def Unit53 (x : ℚ) : Prop := ∃ k : ℕ, k < 2 ^ 53 ∧ x = k / 2 ^ 53

structure Draw.Valid (d : Draw) : Prop where
  sel : Unit53 d.sel
  u : Unit53 d.u

/-! ## Floats -/

theorem nearest_self {p : ℕ} {x y : ℚ} (hx : Repr p x) (h : Nearest p x y) : y = x := by
  have := h.2 x hx
  rw [sub_self, abs_zero] at this
  have := abs_eq_zero.1 (le_antisymm this (abs_nonneg _))
  linarith

theorem repr_frac {m : ℤ} (h : |m| < 2 ^ 53) : Repr 53 (m / 2 ^ 53) :=
  ⟨m, -53, h, by rw [zpow_neg]; norm_num [div_eq_mul_inv]⟩

theorem repr_nat {n : ℕ} (h : n < 2 ^ 53) : Repr 53 (n : ℚ) :=
  ⟨n, 0, by rw [abs_of_nonneg (by positivity)]; exact_mod_cast h, by simp⟩

theorem repr_scale {x : ℚ} (h : Repr 53 x) (k : ℤ) : Repr 53 (x * 2 ^ k) := by
  obtain ⟨m, e, hm, rfl⟩ := h
  exact ⟨m, e + k, hm, by rw [zpow_add₀ (by norm_num)]; ring⟩

/-- A float below one is at most `1 - 2 ^ -53`. -/
theorem below_one {x : ℚ} (h : Repr 53 x) (h1 : x < 1) : x ≤ 1 - 1 / 2 ^ 53 := by
  have := repr_gap (p := 53) (M := 2 ^ 53) (E := -53) (by norm_num) h (by rw [zpow_neg]; norm_num; exact h1)
  rw [zpow_neg] at this
  norm_num at this ⊢
  linarith

/-- A float from one half to below one is a multiple of `2 ^ -53`. -/
theorem half_grid {x : ℚ} (h : Repr 53 x) (h0 : 1 / 2 < x) (h1 : x < 1) :
    ∃ k : ℕ, 2 ^ 52 < k ∧ k < 2 ^ 53 ∧ x = k / 2 ^ 53 := by
  obtain ⟨M, E, hM1, hM2, rfl⟩ := repr_normal h (by linarith)
  have hE : -53 ≤ E := by
    by_contra hc
    push Not at hc
    have h2 : (2 : ℚ) ^ E ≤ 2 ^ (-54 : ℤ) := zpow_le_zpow_right₀ (by norm_num) (by omega)
    have hM2' : (M : ℚ) ≤ 2 ^ 53 := by exact_mod_cast hM2
    have : (M : ℚ) * 2 ^ E ≤ 2 ^ 53 * 2 ^ (-54 : ℤ) := mul_le_mul hM2' h2 (by positivity) (by positivity)
    rw [zpow_neg] at this
    norm_num at this
    linarith
  obtain ⟨j, hj⟩ := Int.le.dest hE
  have e : (M : ℚ) * 2 ^ E = (M * 2 ^ j : ℕ) / 2 ^ 53 := by
    rw [← hj, zpow_add₀ (by norm_num), zpow_natCast, zpow_neg]
    push_cast
    norm_num
    ring
  refine ⟨M * 2 ^ j, ?_, ?_, e⟩
  · rw [e, lt_div_iff₀ (by positivity)] at h0
    have : ((2 ^ 52 : ℕ) : ℚ) < (M * 2 ^ j : ℕ) := by refine lt_of_eq_of_lt ?_ h0; norm_num
    exact_mod_cast this
  · rw [e, div_lt_one (by positivity)] at h1
    have : ((M * 2 ^ j : ℕ) : ℚ) < (2 ^ 53 : ℕ) := by refine lt_of_lt_of_eq h1 ?_; norm_num
    exact_mod_cast this

/-- The product of a float below one and a whole number, rounded, stays below the number. -/
theorem scaled_below {x y : ℚ} {n : ℕ} (hx : Repr 53 x) (h1 : x < 1) (hn : 0 < n) (hn2 : n < 2 ^ 53)
    (h : Nearest 53 (x * n) y) : y < n := by
  by_contra hc
  push Not at hc
  have hn' : (0 : ℚ) < n := by exact_mod_cast hn
  obtain ⟨M, E, hM1, hM2, e⟩ := repr_normal (repr_nat hn2) hn'
  have hM0 : 0 < M := by have : 0 < 2 ^ 53 := by positivity
                         omega
  have hE : (0 : ℚ) < 2 ^ E := by positivity
  have hb := below_one hx h1
  have hxn : x * n ≤ n - n / 2 ^ 53 := by
    have := mul_le_mul_of_nonneg_right hb hn'.le
    rw [sub_mul, one_mul] at this
    rwa [div_mul_eq_mul_div, one_mul] at this
  have hr := repr_pred (p := 53) (E := E) hM2 hM0
  have hpos : 0 < (n : ℚ) / 2 ^ 53 := by positivity
  rcases le_total (x * n) ((M - 1) * 2 ^ E) with hle | hle
  · have := nearest_le h hr hle
    have : (M - 1) * (2 : ℚ) ^ E < n := by rw [e]; linarith
    linarith
  · have h2 := h.2 _ hr
    rw [abs_of_nonpos (by linarith), abs_of_nonneg (by linarith)] at h2
    have e' : ((M : ℚ) - 1) * 2 ^ E = n - 2 ^ E := by rw [e]; ring
    have h3 : 2 * ((n : ℚ) / 2 ^ 53) ≤ 2 ^ E := by rw [e'] at h2; linarith
    have hM1' : (2 : ℚ) ^ 53 < 2 * M := by exact_mod_cast hM1
    have h4 : (2 : ℚ) ^ E * 2 ^ 53 < 2 ^ E * (2 * M) := mul_lt_mul_of_pos_left hM1' hE
    have h5 : 2 * (n : ℚ) ≤ 2 ^ E * 2 ^ 53 := by
      rw [mul_div_assoc', div_le_iff₀ (by positivity)] at h3
      exact h3
    rw [e] at h5
    linarith

theorem Unit53.repr {x : ℚ} (h : Unit53 x) : Repr 53 x := by
  obtain ⟨k, hk, rfl⟩ := h
  have := repr_frac (m := k) (by rw [abs_of_nonneg (by positivity)]; exact_mod_cast hk)
  simpa using this

theorem Unit53.nonneg {x : ℚ} (h : Unit53 x) : 0 ≤ x := by
  obtain ⟨k, -, rfl⟩ := h
  positivity

theorem Unit53.lt {x : ℚ} (h : Unit53 x) : x < 1 := by
  obtain ⟨k, hk, rfl⟩ := h
  rw [div_lt_one (by positivity)]
  exact_mod_cast hk

/-- `1 - u` is a float. -/
theorem Unit53.compl {x : ℚ} (h : Unit53 x) (h0 : 0 < x) : Repr 53 (1 - x) ∧ 1 / 2 ^ 53 ≤ 1 - x := by
  constructor
  · obtain ⟨k, hk, rfl⟩ := h
    have hk0 : 0 < k := by
      rcases Nat.eq_zero_or_pos k with rfl | h'
      · simp at h0
      · exact h'
    have := repr_frac (m := 2 ^ 53 - k) (by rw [abs_of_nonneg (by omega)]; omega)
    have e : (1 : ℚ) - k / 2 ^ 53 = ((2 ^ 53 - k : ℤ) : ℚ) / 2 ^ 53 := by push_cast; ring
    rw [e]; exact this
  · have := below_one h.repr h.lt
    linarith

/-! ## The variate -/

section
variable {A : Arith} (hA : Floats A)
include hA

/-- The triangular variate is from zero to clearly below its upper end. -/
theorem triangular0_mem {H u : ℚ} (hH : Repr 53 H) (h0 : 0 < H) (hu : Unit53 u) :
    0 ≤ triangular0 A H u ∧ triangular0 A H u ≤ H * (1 - 1 / 2 ^ 28) := by
  unfold triangular0
  rw [if_neg h0.ne']
  by_cases hu0 : 0 < u
  · rw [if_pos hu0]
    obtain ⟨c1, c2⟩ := hu.compl hu0
    rw [nearest_self c1 (hA.rnd (1 - u))]
    have r27 : Repr 53 (1 / 2 ^ 27) := ⟨1, -27, by norm_num, by rw [zpow_neg]; norm_num⟩
    have r1 : Repr 53 1 := ⟨1, 0, by norm_num, by norm_num⟩
    have s1 := hA.le_sqrt (1 - u) (1 / 2 ^ 27) (by positivity) r27 (le_trans (by norm_num) c2)
    have s2 := hA.sqrt_le (1 - u) 1 (by linarith [hu.lt]) (by norm_num) r1 (by linarith)
    set s := A.sqrt (1 - u)
    have hm := hA.rnd ((0 - H) * s)
    have m1 : A.rnd ((0 - H) * s) ≤ -(H * 2 ^ (-27 : ℤ)) :=
      nearest_le hm (repr_neg (repr_scale hH _)) (by
        rw [zpow_neg]; norm_num at s1 ⊢; nlinarith)
    have m2 : -H ≤ A.rnd ((0 - H) * s) := le_nearest hm (repr_neg hH) (by nlinarith)
    set m := A.rnd ((0 - H) * s)
    have hv := hA.rnd (H + m)
    have v0 : 0 ≤ A.rnd (H + m) := le_nearest hv (repr_zero _) (by linarith)
    refine ⟨v0, ?_⟩
    rw [zpow_neg] at m1
    norm_num at m1
    rcases eq_or_lt_of_le (by linarith : 0 ≤ H + m) with h | h
    · rw [← h] at hv
      rw [← h, nearest_self (repr_zero _) hv]
      norm_num; positivity
    · have := nearest_rel (by norm_num) h hv
      have h2 := neg_abs_le (H + m - A.rnd (H + m))
      norm_num at this
      norm_num
      linarith
  · rw [if_neg hu0]
    exact ⟨le_rfl, by norm_num; positivity⟩

/-- With a bias of at most one half the variate is clearly below twice the bias. -/
theorem variate_small {rb : ℚ} (hr : Repr 53 rb) (h0 : 0 < rb) (h1 : rb ≤ 1 / 2) {d : Draw} (hd : d.Valid) :
    0 ≤ variate A rb d ∧ variate A rb d ≤ 2 * rb * (1 - 1 / 2 ^ 28) := by
  unfold variate
  rw [if_neg (by linarith)]
  have := repr_scale hr 1
  rw [zpow_one, mul_comm] at this
  exact triangular0_mem hA this (by linarith) hd.u

/-- With a larger bias, not too close to one, the variate is a float below one. -/
theorem variate_large {rb : ℚ} (hr : Repr 53 rb) (h0 : 1 / 2 < rb) (h1 : rb ≤ 1 - 1 / 2 ^ 26) {d : Draw} (hd : d.Valid) :
    Repr 53 (variate A rb d) ∧ 0 ≤ variate A rb d ∧ variate A rb d < 1 := by
  obtain ⟨k, k1, k2, hk⟩ := half_grid hr h0 (lt_of_le_of_lt h1 (by norm_num))
  unfold variate
  rw [if_pos h0]
  have e1 : Repr 53 (rb - 1 / 2) := by
    have := repr_frac (m := k - 2 ^ 52) (by rw [abs_of_nonneg (by omega)]; omega)
    rw [hk]; convert this using 1; push_cast; ring
  rw [nearest_self e1 (hA.rnd _)]
  have hrc : Repr 53 (2 * (rb - 1 / 2)) := by
    have := repr_scale e1 1
    rwa [zpow_one, mul_comm] at this
  have hH : Repr 53 (1 - 2 * (rb - 1 / 2)) := by
    have := repr_frac (m := 2 * (2 ^ 53 - k)) (by rw [abs_of_nonneg (by omega)]; omega)
    rw [hk]; convert this using 1; push_cast; ring
  have hH0 : 1 / 2 ^ 25 ≤ 1 - 2 * (rb - 1 / 2) := by norm_num at h1 ⊢; linarith
  set rc := 2 * (rb - 1 / 2)
  have hrc0 : 0 < rc := by simp only [rc]; linarith
  have hrc1 : rc < 1 := by
    have : (0 : ℚ) < 1 / 2 ^ 25 := by positivity
    linarith
  have rtop : Repr 53 (1 - 1 / 2 ^ 53) := ⟨2 ^ 53 - 1, -53, by norm_num, by rw [zpow_neg]; norm_num⟩
  have key : 0 ≤ trapz A rc d ∧ trapz A rc d ≤ 1 - 1 / 2 ^ 53 ∧ Repr 53 (trapz A rc d) := by
    unfold trapz
    dsimp only
    generalize (if 1 ≤ rc then 0 else A.rnd (A.rnd (1 - rc) / A.rnd (1 + rc))) = pr
    split
    · rw [nearest_self hH (hA.rnd (1 - rc))]
      have hHpos : 0 < 1 - rc := by linarith
      obtain ⟨t0, t1⟩ := triangular0_mem hA hH hHpos hd.u
      have hv := hA.rnd (rc + triangular0 A (1 - rc) d.u)
      refine ⟨le_nearest hv (repr_zero _) (by linarith), nearest_le hv rtop ?_, hv.1⟩
      norm_num at t1 hH0 ⊢
      linarith
    · unfold uniform0
      have hv := hA.rnd (rc * d.u)
      have hu0 := hd.u.nonneg
      refine ⟨le_nearest hv (repr_zero _) (by positivity), ?_, hv.1⟩
      refine le_trans (nearest_le hv hd.u.repr ?_) (below_one hd.u.repr hd.u.lt)
      nlinarith
  exact ⟨key.2.2, key.1, lt_of_le_of_lt key.2.1 (by norm_num)⟩

/-- A position that is not negative. -/
theorem call_of_nonneg {K : List ℕ} {rb : ℚ} {d : Draw} (h : 0 ≤ variate A rb d) :
    0 ≤ A.rnd (variate A rb d * K.length) ∧ call A K rb d = K[⌊A.rnd (variate A rb d * K.length)⌋₊]? := by
  have h0 : 0 ≤ A.rnd (variate A rb d * K.length) :=
    le_nearest (hA.rnd _) (repr_zero _) (by positivity)
  refine ⟨h0, ?_⟩
  unfold call truncate Sampler.item
  rw [if_pos h0, if_pos (Int.floor_nonneg.2 h0), Int.floor_toNat]

/-! ## C134 -/

/-- C134: with a bias of at most one half, rounding included, one of the first `⌈2·bias·n⌉` candidates is returned. -/
theorem C134_rank_bound (K : List ℕ) (hK : K ≠ []) (rb : ℚ) (hr : Repr 53 rb) (h0 : 0 < rb)
    (h1 : rb ≤ 1 / 2) (d : Draw) (hd : d.Valid) : ∃ k ∈ K.take ⌈2 * rb * K.length⌉₊, call A K rb d = some k := by
  have hpos : 0 < K.length := List.length_pos_iff.2 hK
  have hpos' : (0 : ℚ) < K.length := by exact_mod_cast hpos
  obtain ⟨v0, v1⟩ := variate_small hA hr h0 h1 hd
  obtain ⟨y0, hc⟩ := call_of_nonneg hA (K := K) v0
  have hy := hA.rnd (variate A rb d * K.length)
  have hlt : A.rnd (variate A rb d * K.length) < 2 * rb * K.length := by
    have hx : variate A rb d * K.length ≤ 2 * rb * K.length * (1 - 1 / 2 ^ 28) := by
      have := mul_le_mul_of_nonneg_right v1 hpos'.le
      linarith
    have hb : 0 < 2 * rb * K.length := by positivity
    rcases eq_or_lt_of_le (mul_nonneg v0 hpos'.le) with h | h
    · rw [← h] at hy ⊢
      rw [nearest_self (repr_zero _) hy]
      exact hb
    · have h2 := nearest_rel (by norm_num) h hy
      have h3 := neg_abs_le (variate A rb d * K.length - A.rnd (variate A rb d * K.length))
      norm_num at h2 hx
      linarith
  have hf1 : ⌊A.rnd (variate A rb d * K.length)⌋₊ < ⌈2 * rb * K.length⌉₊ := by
    rw [Nat.floor_lt y0]
    exact lt_of_lt_of_le hlt (Nat.le_ceil _)
  have hf2 : ⌊A.rnd (variate A rb d * K.length)⌋₊ < K.length := by
    rw [Nat.floor_lt y0]
    exact lt_of_lt_of_le hlt (by nlinarith)
  refine ⟨K[⌊A.rnd (variate A rb d * K.length)⌋₊], ?_, by rw [hc, List.getElem?_eq_getElem hf2]⟩
  exact List.mem_take_iff_getElem.2 ⟨_, by simpa using ⟨hf1, hf2⟩, rfl⟩

/-- C134, what does hold: with a bias up to `1 - 2 ^ -26`, a request for one index returns that of an allowed member,
rounding included.

The full property asks for this up to a bias of one; `C134_index_error` shows that it is not so. -/
theorem C134_returns_allowed_partial (KS ex : List ℕ) (hK : ∃ k ∈ KS, k ∉ ex) (hn : KS.length < 2 ^ 53) (rb : ℚ)
    (hr : Repr 53 rb) (h0 : 0 < rb) (h1 : rb ≤ 1 - 1 / 2 ^ 26) (d : Draw) (hd : d.Valid) :
    ∃ k ∈ KS, k ∉ ex ∧ sampleOne A KS ex rb d = .value [k] := by
  set K := Sampler.candidates KS ex with hKdef
  have hne : K ≠ [] := by
    obtain ⟨k, hk, hke⟩ := hK
    exact List.ne_nil_of_mem (Sampler.mem_candidates.2 ⟨hk, hke⟩)
  have hpos : 0 < K.length := List.length_pos_iff.2 hne
  have hlen : K.length < 2 ^ 53 := lt_of_le_of_lt (List.length_filter_le _ _) hn
  have key : ∃ k ∈ K, call A K rb d = some k := by
    rcases le_or_gt rb (1 / 2) with h | h
    · obtain ⟨k, hk, hc⟩ := C134_rank_bound hA K hne rb hr h0 h d hd
      exact ⟨k, List.mem_of_mem_take hk, hc⟩
    · obtain ⟨vr, v0, v1⟩ := variate_large hA hr h h1 hd
      obtain ⟨y0, hc⟩ := call_of_nonneg hA (K := K) v0
      have hy := scaled_below vr v1 hpos hlen (hA.rnd _)
      have hf : ⌊A.rnd (variate A rb d * K.length)⌋₊ < K.length := (Nat.floor_lt y0).2 hy
      exact ⟨K[⌊A.rnd (variate A rb d * K.length)⌋₊], List.getElem_mem _, by rw [hc, List.getElem?_eq_getElem hf]⟩
  obtain ⟨k, hk, hc⟩ := key
  have hm := Sampler.mem_candidates.1 hk
  refine ⟨k, hm.1, hm.2, ?_⟩
  have h2 : ¬ 1 < rb := by
    have : (0 : ℚ) < 1 / 2 ^ 26 := by positivity
    linarith
  unfold sampleOne
  simp only [if_neg h2, ← hKdef, hc]

/-- C134: with the bias `1 - 2 ^ -30` there are draws for which the variate is rounded to one, and the request ends in an
`IndexError`, whatever the population. -/
theorem C134_index_error (KS ex : List ℕ) (hn : KS.length < 2 ^ 53) :
    Repr 53 (1 - 1 / 2 ^ 30) ∧ (⟨0, 1 - 1 / 2 ^ 52⟩ : Draw).Valid ∧
      sampleOne A KS ex (1 - 1 / 2 ^ 30) ⟨0, 1 - 1 / 2 ^ 52⟩ = .indexError := by
  refine ⟨⟨2 ^ 30 - 1, -30, by norm_num, by rw [zpow_neg]; norm_num⟩,
    ⟨⟨0, by norm_num, by norm_num⟩, ⟨2 ^ 53 - 2, by norm_num, by norm_num⟩⟩, ?_⟩
  set K := Sampler.candidates KS ex with hKdef
  have hlen : K.length < 2 ^ 53 := lt_of_le_of_lt (List.length_filter_le _ _) hn
  have hv : variate A (1 - 1 / 2 ^ 30) ⟨0, 1 - 1 / 2 ^ 52⟩ = 1 := by
    unfold variate
    rw [if_pos (by norm_num)]
    have a1 : A.rnd (1 - 1 / 2 ^ 30 - 1 / 2) = 1 / 2 - 1 / 2 ^ 30 := by
      rw [nearest_self ⟨2 ^ 29 - 1, -30, by norm_num, by rw [zpow_neg]; norm_num⟩ (hA.rnd _)]; norm_num
    rw [a1, show (2 : ℚ) * (1 / 2 - 1 / 2 ^ 30) = 1 - 1 / 2 ^ 29 by norm_num]
    unfold trapz
    have a2 : A.rnd (1 - (1 - 1 / 2 ^ 29)) = 1 / 2 ^ 29 := by
      rw [nearest_self ⟨1, -29, by norm_num, by rw [zpow_neg]; norm_num⟩ (hA.rnd _)]; norm_num
    dsimp only
    rw [a2, if_neg (show ¬ (1 : ℚ) ≤ 1 - 1 / 2 ^ 29 by norm_num)]
    have a3 : A.rnd (1 + (1 - 1 / 2 ^ 29)) = 2 - 1 / 2 ^ 29 := by
      rw [nearest_self ⟨2 ^ 30 - 1, -29, by norm_num, by rw [zpow_neg]; norm_num⟩ (hA.rnd _)]; norm_num
    rw [a3]
    have a4 : (1 / 2 ^ 30 : ℚ) ≤ A.rnd (1 / 2 ^ 29 / (2 - 1 / 2 ^ 29)) :=
      le_nearest (hA.rnd _) ⟨1, -30, by norm_num, by rw [zpow_neg]; norm_num⟩ (by norm_num)
    rw [if_pos (lt_of_lt_of_le (by norm_num) a4)]
    have a5 : triangular0 A (1 / 2 ^ 29) (1 - 1 / 2 ^ 52) = 1 / 2 ^ 29 - 1 / 2 ^ 55 := by
      unfold triangular0
      rw [if_neg (by norm_num), if_pos (by norm_num)]
      have b1 : A.rnd (1 - (1 - 1 / 2 ^ 52)) = 1 / 2 ^ 52 := by
        rw [nearest_self ⟨1, -52, by norm_num, by rw [zpow_neg]; norm_num⟩ (hA.rnd _)]; norm_num
      have r26 : Repr 53 (1 / 2 ^ 26) := ⟨1, -26, by norm_num, by rw [zpow_neg]; norm_num⟩
      have b2 : A.sqrt (1 / 2 ^ 52) = 1 / 2 ^ 26 :=
        le_antisymm (hA.sqrt_le _ _ (by positivity) (by positivity) r26 (by norm_num))
          (hA.le_sqrt _ _ (by positivity) r26 (by norm_num))
      have b3 : A.rnd ((0 - 1 / 2 ^ 29) * (1 / 2 ^ 26)) = -(1 / 2 ^ 55) := by
        rw [nearest_self ⟨-1, -55, by norm_num, by rw [zpow_neg]; norm_num⟩ (hA.rnd _)]; norm_num
      rw [b1, b2, b3, nearest_self ⟨2 ^ 26 - 1, -55, by norm_num, by rw [zpow_neg]; norm_num⟩ (hA.rnd _)]
      norm_num
    rw [a5, show (1 - 1 / 2 ^ 29 + (1 / 2 ^ 29 - 1 / 2 ^ 55) : ℚ) = 1 - 1 / 2 ^ 55 by norm_num]
    have hr := hA.rnd (1 - 1 / 2 ^ 55)
    have r1 : Repr 53 1 := ⟨1, 0, by norm_num, by norm_num⟩
    have c1 := nearest_le hr r1 (by norm_num)
    by_contra hc
    have c2 := below_one hr.1 (lt_of_le_of_ne c1 hc)
    have c3 := hr.2 1 r1
    rw [abs_of_nonneg (by norm_num at c2 ⊢; linarith), abs_of_nonpos (by norm_num)] at c3
    norm_num at c2 c3
    linarith
  have hc : call A K (1 - 1 / 2 ^ 30) ⟨0, 1 - 1 / 2 ^ 52⟩ = none := by
    rw [(call_of_nonneg hA (by rw [hv]; norm_num)).2, hv, one_mul, nearest_self (repr_nat hlen) (hA.rnd _),
      Nat.floor_natCast]
    simp
  unfold sampleOne
  simp only [← hKdef, hc]
  rw [if_neg (by norm_num)]

end

/-! ## Examples -/

/-- There are square roots in floats. -/
theorem sqrt_exists (x : ℚ) (hx : 0 ≤ x) : ∃ s, Repr 53 s ∧ (∀ z, 0 ≤ z → Repr 53 z → z * z ≤ x → z ≤ s) ∧
    ∀ z, 0 ≤ z → Repr 53 z → x ≤ z * z → s ≤ z := by
  rcases eq_or_lt_of_le hx with rfl | hx
  · exact ⟨0, repr_zero _, fun z h0 _ h => by nlinarith, fun z h0 _ _ => h0⟩
  have h1 := Int.zpow_log_le_self (b := 4) (r := x) (by norm_num) hx
  have h2 := Int.lt_zpow_succ_log_self (b := 4) (by norm_num) x
  push_cast at h1 h2
  set L := Int.log 4 x
  have h4 : (0 : ℚ) < 4 ^ (L - 52) := by positivity
  have e1 : (4 : ℚ) ^ L = 4 ^ (L - 52) * 4 ^ 52 := by
    rw [← zpow_natCast, ← zpow_add₀ (by norm_num)]; congr 1; push_cast; ring
  have e2 : (4 : ℚ) ^ (L + 1) = 4 ^ (L - 52) * 4 ^ 53 := by
    rw [← zpow_natCast, ← zpow_add₀ (by norm_num)]; congr 1; push_cast; ring
  have e3 : (4 : ℚ) ^ (L - 52) = 2 ^ (L - 52) * 2 ^ (L - 52) := by rw [← mul_zpow]; norm_num
  rw [e1] at h1
  rw [e2] at h2
  have hy0 : 0 ≤ x / 4 ^ (L - 52) := by positivity
  have f1 := Nat.floor_le hy0
  have f2 := Nat.lt_floor_add_one (x / 4 ^ (L - 52))
  have g1 : 4 ^ 52 ≤ ⌊x / 4 ^ (L - 52)⌋₊ := by
    apply Nat.le_floor
    rw [le_div_iff₀ h4]; push_cast; linarith
  have g2 : ⌊x / 4 ^ (L - 52)⌋₊ < 4 ^ 53 := by
    rw [Nat.floor_lt hy0, div_lt_iff₀ h4]; push_cast; linarith
  set n := ⌊x / 4 ^ (L - 52)⌋₊
  rw [le_div_iff₀ h4] at f1
  rw [div_lt_iff₀ h4] at f2
  have q1 := Nat.sqrt_le n
  have q2 := Nat.lt_succ_sqrt n
  set m := Nat.sqrt n
  have m1 : 2 ^ 52 ≤ m := by
    by_contra hc
    push Not at hc
    have : (m + 1) * (m + 1) ≤ 2 ^ 52 * 2 ^ 52 := Nat.mul_le_mul hc hc
    norm_num at this g1 q2
    omega
  have m2 : m < 2 ^ 53 := by
    by_contra hc
    push Not at hc
    have : 2 ^ 53 * 2 ^ 53 ≤ m * m := Nat.mul_le_mul hc hc
    norm_num at this g2
    omega
  have hE : (0 : ℚ) < 2 ^ (L - 52) := by positivity
  have q1' : (m : ℚ) * m ≤ n := by exact_mod_cast q1
  have q2' : (n : ℚ) + 1 ≤ (m + 1) * (m + 1) := by exact_mod_cast q2
  refine ⟨m * 2 ^ (L - 52), ⟨m, L - 52, ?_, by push_cast; rfl⟩, fun z z0 zr hz => ?_, fun z z0 zr hz => ?_⟩
  · rw [abs_of_nonneg (by positivity)]; exact_mod_cast m2
  · rcases lt_or_ge z ((m + 1 : ℕ) * 2 ^ (L - 52)) with h | h
    · have := repr_gap (by omega) zr h
      push_cast at this
      linarith
    · exfalso
      push_cast at h
      have a : ((m : ℚ) + 1) * 2 ^ (L - 52) * ((m + 1) * 2 ^ (L - 52)) ≤ z * z :=
        mul_le_mul h h (by positivity) z0
      have b : ((n : ℚ) + 1) * 4 ^ (L - 52) ≤ (m + 1) * (m + 1) * 4 ^ (L - 52) :=
        mul_le_mul_of_nonneg_right q2' h4.le
      rw [e3] at b f2
      linarith
  · have a : (m : ℚ) * m * 4 ^ (L - 52) ≤ n * 4 ^ (L - 52) := mul_le_mul_of_nonneg_right q1' h4.le
    rw [e3] at a f1
    refine (mul_self_le_mul_self_iff (by positivity) z0).2 ?_
    linarith

namespace Demo

/-- An arithmetic of floats. -/
noncomputable def arith : Arith :=
  ⟨fun x => (nearest_exists (p := 53) (by norm_num) x).choose,
    fun x => if h : 0 ≤ x then (sqrt_exists x h).choose else 0⟩

theorem floats : Floats arith where
  rnd x := (nearest_exists (p := 53) (by norm_num) x).choose_spec
  sqrt_repr x h := by simp only [arith, dif_pos h]; exact (sqrt_exists x h).choose_spec.1
  le_sqrt x z h0 hr h := by
    have hx : 0 ≤ x := le_trans (mul_nonneg h0 h0) h
    simp only [arith, dif_pos hx]
    exact (sqrt_exists x hx).choose_spec.2.1 z h0 hr h
  sqrt_le x z hx h0 hr h := by
    simp only [arith, dif_pos hx]
    exact (sqrt_exists x hx).choose_spec.2.2 z h0 hr h

theorem draw : (⟨1 / 4, 1 / 2 ^ 53⟩ : Draw).Valid :=
  ⟨⟨2 ^ 51, by norm_num, by norm_num⟩, ⟨1, by norm_num, by norm_num⟩⟩

example := C134_rank_bound floats [4, 2, 7] (by simp) (3 / 8) ⟨3, -3, by norm_num, by norm_num⟩ (by norm_num)
  (by norm_num) _ draw
example := C134_returns_allowed_partial floats [4, 2, 7] [2] (by decide) (by norm_num) (3 / 4)
  ⟨3, -2, by norm_num, by norm_num⟩ (by norm_num) (by norm_num) _ draw
example := C134_index_error floats [4, 2, 7] [2] (by norm_num)

end Demo
end SamplerRounded
end Ade
