import Verif.Props.SamplerRounded
import Verif.Props.SamplerProb
import Verif.Props.MachineRandom

/-!
# C162: how likely each candidate is to be chosen, with the arithmetic and the random numbers of the machine
-/

set_option autoImplicit false

namespace Ade
namespace SamplerRounded

open Rounding FRounded
open MachineRandom (cases draw count_lt count_le)

/-! ## Specification -/

/-- In how many of all cases of the two random numbers one of the best `m` candidates is chosen. -/
def best (A : Arith) (K : List ℕ) (rb : ℚ) (m : ℕ) : ℕ :=
  (Finset.univ.filter fun w : Fin cases × Fin cases => ∃ k ∈ K.take m, call A K rb ⟨draw w.1, draw w.2⟩ = some k).card

/-- In how many of all cases of the two random numbers the candidate `k` is chosen. -/
def hits (A : Arith) (K : List ℕ) (rb : ℚ) (k : ℕ) : ℕ :=
  (Finset.univ.filter fun w : Fin cases × Fin cases => call A K rb ⟨draw w.1, draw w.2⟩ = some k).card

/-! ## Rounding -/

/-- The relative error of a rounding. -/
def eps : ℚ := 1 / 2 ^ 53

theorem eps_pos : 0 < eps := by norm_num [eps]

theorem eps_small : eps ≤ 1 / 1000 := by norm_num [eps]

section
variable {A : Arith} (hA : Floats A)
include hA

theorem rnd_bounds {x : ℚ} (hx : 0 ≤ x) : x * (1 - eps) ≤ A.rnd x ∧ A.rnd x ≤ x * (1 + eps) := by
  have h := RelationsRounded.rounding_error_abs (fl := A.rnd) hA.rnd x
  rw [abs_of_nonneg hx, abs_le] at h
  have e : x / 2 ^ 53 = x * eps := by unfold eps; ring
  rw [e] at h
  constructor <;> linarith [h.1, h.2]

theorem sqrt_lower {t x : ℚ} (ht : 0 < t) (h : t * t ≤ x) : t * (1 - 2 * eps) ≤ A.sqrt x := by
  obtain ⟨M, E, h1, h2, h3, h4, h5⟩ := bracket (p := 53) (by norm_num) ht
  have hM : 1 ≤ M := by omega
  have hM' : (1 : ℚ) ≤ M := by exact_mod_cast hM
  have hE : (0 : ℚ) < 2 ^ E := by positivity
  have z0 : 0 ≤ ((M : ℚ) - 1) * 2 ^ E := mul_nonneg (by linarith) hE.le
  have hz := hA.le_sqrt x _ z0 (repr_pred h2 hM) ((mul_self_le_mul_self z0 h3).trans h)
  refine le_trans ?_ hz
  have e : t * (1 - 2 * eps) = t - t / 2 ^ 52 := by unfold eps; ring
  rw [e]
  have : (2 : ℚ) ^ E ≤ t / 2 ^ 52 := by rw [le_div_iff₀ (by norm_num)]; simpa using h5
  linarith

theorem sqrt_upper {t x : ℚ} (ht : 0 < t) (hx : 0 ≤ x) (h : x ≤ t * t) : A.sqrt x ≤ t * (1 + 2 * eps) := by
  obtain ⟨M, E, h1, h2, h3, h4, h5⟩ := bracket (p := 53) (by norm_num) ht
  have hE : (0 : ℚ) < 2 ^ E := by positivity
  have z0 : 0 ≤ (M : ℚ) * 2 ^ E := by positivity
  have hz := hA.sqrt_le x _ hx z0 (repr_top (by norm_num) h2) (h.trans (mul_self_le_mul_self ht.le h4.le))
  refine hz.trans ?_
  have e : t * (1 + 2 * eps) = t + t / 2 ^ 52 := by unfold eps; ring
  rw [e]
  have : (2 : ℚ) ^ E ≤ t / 2 ^ 52 := by rw [le_div_iff₀ (by norm_num)]; simpa using h5
  linarith

theorem tri_parts {H u : ℚ} (hH : Repr 53 H) (h0 : 0 < H) (hu : Unit53 u) (hu0 : 0 < u) :
    ∃ s v : ℚ, s = A.sqrt (1 - u) ∧ 0 ≤ s ∧ s ≤ 1 ∧ triangular0 A H u = v ∧ 0 ≤ v ∧
      v ≤ H * (1 - s * (1 - eps)) * (1 + eps) ∧ H * (1 - s * (1 + eps)) * (1 - eps) ≤ v := by
  obtain ⟨c1, c2⟩ := hu.compl hu0
  have r1 : Repr 53 1 := ⟨1, 0, by norm_num, by norm_num⟩
  have s1 := hA.le_sqrt (1 - u) 0 le_rfl (repr_zero _) (by linarith [hu.lt])
  have s2 := hA.sqrt_le (1 - u) 1 (by linarith [hu.lt]) (by norm_num) r1 (by linarith)
  refine ⟨_, _, rfl, s1, s2, rfl, (triangular0_mem hA hH h0 hu).1, ?_⟩
  unfold triangular0
  rw [if_neg h0.ne', if_pos hu0, nearest_self c1 (hA.rnd (1 - u))]
  generalize A.sqrt (1 - u) = s at *
  have hm := hA.rnd ((0 - H) * s)
  have m2 : -H ≤ A.rnd ((0 - H) * s) := le_nearest hm (repr_neg hH) (by nlinarith)
  have er := RelationsRounded.rounding_error_abs (fl := A.rnd) hA.rnd ((0 - H) * s)
  have ea : |(0 - H) * s| / 2 ^ 53 = H * s * eps := by
    rw [zero_sub, neg_mul, abs_neg, abs_of_nonneg (mul_nonneg h0.le s1)]; unfold eps; ring
  rw [ea, abs_le] at er
  generalize A.rnd ((0 - H) * s) = p at *
  have hv := rnd_bounds hA (x := H + p) (by linarith)
  have e0 := eps_pos
  have e1 := eps_small
  constructor
  · refine hv.2.trans (mul_le_mul_of_nonneg_right ?_ (by linarith))
    linarith [er.2]
  · refine le_trans (mul_le_mul_of_nonneg_right ?_ (by linarith)) hv.1
    linarith [er.1]

theorem tri_upper {H u t : ℚ} (hH : Repr 53 H) (h0 : 0 < H) (hu : Unit53 u) (ht : 0 < t) (h : t * t ≤ 1 - u) :
    triangular0 A H u ≤ H * (1 - t + 3 * eps) * (1 + eps) := by
  have e0 := eps_pos
  have e1 := eps_small
  have ht1 : t ≤ 1 := by nlinarith [hu.nonneg]
  rcases eq_or_lt_of_le hu.nonneg with hz | hu0
  · rw [← hz]
    simp only [triangular0, lt_irrefl, if_false, ite_self]
    exact mul_nonneg (mul_nonneg h0.le (by linarith)) (by linarith)
  · obtain ⟨s, v, hs, s0, s1, hv, v0, v1, -⟩ := tri_parts hA hH h0 hu hu0
    rw [hv]
    have := sqrt_lower hA ht h
    rw [← hs] at this
    refine v1.trans (mul_le_mul_of_nonneg_right (mul_le_mul_of_nonneg_left ?_ h0.le) (by linarith))
    have h2 : t * (1 - 2 * eps) * (1 - eps) ≤ s * (1 - eps) := mul_le_mul_of_nonneg_right this (by linarith)
    nlinarith [mul_pos ht (mul_pos e0 e0), mul_pos ht e0]

theorem tri_lower {H u t : ℚ} (hH : Repr 53 H) (h0 : 0 < H) (hu : Unit53 u) (ht : 0 < t) (ht1 : t ≤ 1) (h : 1 - u ≤ t * t) :
    H * (1 - t - 4 * eps) * (1 - eps) ≤ triangular0 A H u := by
  have e0 := eps_pos
  have e1 := eps_small
  rcases eq_or_lt_of_le hu.nonneg with hz | hu0
  · have ht2 : t = 1 := by nlinarith
    rw [← hz]
    simp only [triangular0, lt_irrefl, if_false, ite_self]
    rw [ht2]
    have : H * (1 - 1 - 4 * eps) * (1 - eps) = -(4 * H * eps * (1 - eps)) := by ring
    rw [this]
    have : 0 ≤ 4 * H * eps * (1 - eps) := mul_nonneg (by positivity) (by linarith)
    linarith
  · obtain ⟨s, v, hs, s0, s1, hv, v0, -, v1⟩ := tri_parts hA hH h0 hu hu0
    rw [hv]
    have := sqrt_upper hA ht (by linarith [hu.lt]) h
    rw [← hs] at this
    refine le_trans (mul_le_mul_of_nonneg_right (mul_le_mul_of_nonneg_left ?_ h0.le) (by linarith)) v1
    have h2 : s * (1 + eps) ≤ t * (1 + 2 * eps) * (1 + eps) := mul_le_mul_of_nonneg_right this (by linarith)
    have h3 : t * (1 + 2 * eps) * (1 + eps) ≤ t + 4 * eps := by
      have : t * (1 + 2 * eps) * (1 + eps) = t + t * (3 * eps + 2 * eps * eps) := by ring
      rw [this]
      have : t * (3 * eps + 2 * eps * eps) ≤ 1 * (3 * eps + 2 * eps * eps) := mul_le_mul_of_nonneg_right ht1 (by positivity)
      nlinarith
    linarith

/-- One of the best `m` is chosen if the scaled variate is below `m`. -/
theorem chosen_iff {K : List ℕ} (hK : K.Nodup) {m : ℕ} (hm : m ≤ K.length) {rb : ℚ} {d : Draw} (hv : 0 ≤ variate A rb d) :
    (∃ k ∈ K.take m, call A K rb d = some k) ↔ A.rnd (variate A rb d * K.length) < m := by
  obtain ⟨y0, hc⟩ := call_of_nonneg hA (K := K) hv
  rw [hc]
  generalize A.rnd (variate A rb d * K.length) = y at *
  rw [← Nat.floor_lt y0]
  generalize ⌊y⌋₊ = i
  constructor
  · rintro ⟨k, hk, hi⟩
    obtain ⟨h1, rfl⟩ := List.getElem?_eq_some_iff.1 hi
    obtain ⟨j, hj, he⟩ := List.mem_take_iff_getElem.1 hk
    have := (List.Nodup.getElem_inj_iff hK).1 he
    omega
  · intro hi
    refine ⟨K[i], ?_, List.getElem?_eq_getElem (by omega)⟩
    exact List.mem_take_iff_getElem.2 ⟨i, by omega, rfl⟩

end

/-! ## Counting -/

theorem unit_draw (w : Fin cases) : Unit53 (draw w) := ⟨w, w.2, rfl⟩

/-- The share of the cases. -/
def part (P : Fin cases → Prop) [DecidablePred P] : ℚ := ((Finset.univ.filter P).card : ℕ) / 2 ^ 53

theorem cases_cast : ((cases : ℕ) : ℚ) = 2 ^ 53 := by unfold cases; norm_num

theorem part_mem (P : Fin cases → Prop) [DecidablePred P] : 0 ≤ part P ∧ part P ≤ 1 := by
  unfold part
  refine ⟨by positivity, ?_⟩
  rw [div_le_one (by norm_num), ← cases_cast]
  have := Finset.card_le_univ (Finset.univ.filter P)
  rw [Fintype.card_fin] at this
  exact_mod_cast this

theorem part_bounds (P : Fin cases → Prop) [DecidablePred P] {L U : ℚ} (hL : L ≤ 1) (hU : 0 ≤ U) (h1 : ∀ w, draw w < L → P w)
    (h2 : ∀ w, P w → draw w ≤ U) : L ≤ part P ∧ part P ≤ U + eps := by
  have hlow : (Finset.univ.filter fun w : Fin cases => ((w : ℕ) : ℚ) < L * 2 ^ 53) ⊆ Finset.univ.filter P := by
    intro w
    simp only [Finset.mem_filter, Finset.mem_univ, true_and]
    intro h
    exact h1 w (by unfold draw; rwa [div_lt_iff₀ (by norm_num)])
  have hhigh : Finset.univ.filter P ⊆ Finset.univ.filter fun w : Fin cases => ((w : ℕ) : ℚ) ≤ U * 2 ^ 53 := by
    intro w
    simp only [Finset.mem_filter, Finset.mem_univ, true_and]
    intro h
    have := h2 w h
    unfold draw at this
    rwa [div_le_iff₀ (by norm_num)] at this
  have l1 := Finset.card_le_card hlow
  have l2 := Finset.card_le_card hhigh
  rw [count_lt] at l1
  rw [count_le _ _ (by positivity)] at l2
  unfold part
  generalize (Finset.univ.filter P).card = c at *
  constructor
  · rw [le_div_iff₀ (by norm_num)]
    have a1 : L * 2 ^ 53 ≤ (⌈L * 2 ^ 53⌉₊ : ℚ) := Nat.le_ceil _
    have a2 : L * 2 ^ 53 ≤ (cases : ℚ) := by rw [cases_cast]; linarith
    calc L * 2 ^ 53 ≤ min (cases : ℚ) (⌈L * 2 ^ 53⌉₊ : ℚ) := le_min a2 a1
      _ ≤ c := by exact_mod_cast l1
  · rw [div_le_iff₀ (by norm_num)]
    have a1 : (c : ℚ) ≤ (⌊U * 2 ^ 53⌋₊ : ℚ) + 1 := by exact_mod_cast l2.trans (min_le_right _ _)
    have a2 := Nat.floor_le (show 0 ≤ U * 2 ^ 53 by positivity)
    have e : (U + eps) * 2 ^ 53 = U * 2 ^ 53 + 1 := by unfold eps; ring
    rw [e]; linarith

set_option linter.constructorNameAsVariable false in
theorem pair_count (R P Q : Fin cases → Prop) [DecidablePred R] [DecidablePred P] [DecidablePred Q] :
    (((Finset.univ.filter fun w : Fin cases × Fin cases => if R w.1 then P w.2 else Q w.2).card : ℕ) : ℚ) / 2 ^ 106 =
      part R * part P + (1 - part R) * part Q := by
  have hset : (Finset.univ.filter fun w : Fin cases × Fin cases => if R w.1 then P w.2 else Q w.2) =
      ((Finset.univ.filter R) ×ˢ (Finset.univ.filter P)) ∪ ((Finset.univ.filter fun w => ¬ R w) ×ˢ (Finset.univ.filter Q)) := by
    ext w
    simp only [Finset.mem_filter, Finset.mem_univ, true_and, Finset.mem_union, Finset.mem_product]
    by_cases h : R w.1 <;> simp [h]
  have hdis : Disjoint ((Finset.univ.filter R) ×ˢ (Finset.univ.filter P)) ((Finset.univ.filter fun w => ¬ R w) ×ˢ (Finset.univ.filter Q)) := by
    rw [Finset.disjoint_left]
    intro w h1 h2
    simp only [Finset.mem_filter, Finset.mem_univ, true_and, Finset.mem_product] at h1 h2
    exact h2.1 h1.1
  have hnot : ((Finset.univ.filter fun w => ¬ R w).card : ℚ) = 2 ^ 53 - (Finset.univ.filter R).card := by
    have := Finset.card_filter_add_card_filter_not (s := (Finset.univ : Finset (Fin cases))) R
    rw [Finset.card_univ, Fintype.card_fin] at this
    have h : (((Finset.univ.filter R).card + (Finset.univ.filter fun w => ¬ R w).card : ℕ) : ℚ) = (cases : ℕ) := congrArg Nat.cast this
    rw [cases_cast, Nat.cast_add] at h
    linarith
  rw [hset, Finset.card_union_of_disjoint hdis, Finset.card_product, Finset.card_product]
  push_cast
  rw [hnot]
  unfold part
  ring

/-! ## The triangular part -/

/-- The shares of a decision by a triangular variate: `x` is the part of the triangle, `z` the uncertainty. -/
theorem part_tri (P : Fin cases → Prop) [DecidablePred P] {x z : ℚ} (hx0 : 0 ≤ x) (hx1 : x < 1) (hz0 : 0 ≤ z)
    (h1 : ∀ w, (1 - x + z) * (1 - x + z) ≤ 1 - draw w → P w)
    (h2 : ∀ w, 0 < 1 - x - z → 1 - draw w ≤ (1 - x - z) * (1 - x - z) → ¬ P w) :
    |part P - (1 - (1 - x) ^ 2)| ≤ 2 * z + z ^ 2 + eps := by
  have e0 := eps_pos
  have hb : 0 ≤ 2 * z * x := by positivity
  obtain ⟨b1, b2⟩ := part_bounds P (L := 1 - (1 - x + z) * (1 - x + z)) (U := 1 - (max (1 - x - z) 0) ^ 2)
    (by nlinarith [mul_self_nonneg (1 - x + z)]) (by
      have : max (1 - x - z) 0 ≤ 1 := max_le (by linarith) (by norm_num)
      have h0 : 0 ≤ max (1 - x - z) 0 := le_max_right _ _
      nlinarith) (fun w hw => h1 w (by linarith)) (fun w hw => by
      rcases le_or_gt (1 - x - z) 0 with h | h
      · rw [max_eq_right h]
        have := (unit_draw w).lt
        linarith
      · rw [max_eq_left h.le]
        by_contra hc
        exact h2 w h (by nlinarith) hw)
  rw [abs_le]
  constructor
  · nlinarith
  · rcases le_or_gt (1 - x - z) 0 with h | h
    · rw [max_eq_right h] at b2
      nlinarith
    · rw [max_eq_left h.le] at b2
      nlinarith

/-! ## A bias of at most one half -/

section
variable {A : Arith} (hA : Floats A)
include hA

theorem small_share (K : List ℕ) (hK : K.Nodup) (hn : K.length < 2 ^ 53) (rb : ℚ) (hr : Repr 53 rb) (h0 : 0 < rb) (h1 : rb ≤ 1 / 2)
    (m : ℕ) (hm : m ≤ K.length) (hne : K ≠ []) :
    |(best A K rb m : ℚ) / 2 ^ 106 - (if (m : ℚ) / K.length < 2 * rb then 1 - (1 - (m : ℚ) / K.length / (2 * rb)) ^ 2 else 1)| ≤
      24 / 2 ^ 53 := by
  classical
  have e0 := eps_pos
  have e1 := eps_small
  have hn0 : (0 : ℚ) < K.length := by exact_mod_cast List.length_pos_iff.2 hne
  have valid : ∀ a b : Fin cases, (⟨draw a, draw b⟩ : Draw).Valid := fun a b => ⟨unit_draw a, unit_draw b⟩
  have key : (best A K rb m : ℚ) / 2 ^ 106 = part fun w => A.rnd (triangular0 A (2 * rb) (draw w) * K.length) < m := by
    have := pair_count (fun _ => True) (fun w => A.rnd (triangular0 A (2 * rb) (draw w) * K.length) < m) (fun _ => True)
    have ht : part (fun _ => True) = 1 := by
      unfold part
      rw [Finset.filter_true, Finset.card_univ, Fintype.card_fin, cases_cast, div_self (by norm_num)]
    rw [ht, one_mul, sub_self, zero_mul, add_zero] at this
    rw [← this]
    unfold best
    refine congrArg (fun s : Finset (Fin cases × Fin cases) => ((s.card : ℕ) : ℚ) / 2 ^ 106) (Finset.filter_congr fun w _ => ?_)
    rw [chosen_iff hA hK hm (variate_small hA hr h0 h1 (valid _ _)).1]
    unfold variate
    rw [if_neg (by linarith), if_pos trivial]
  rw [key]
  have hH : Repr 53 (2 * rb) := by
    have := repr_scale hr 1
    rwa [zpow_one, mul_comm] at this
  have hrm : Repr 53 (m : ℚ) := repr_nat (by omega)
  split_ifs with hx
  · have hx1 : (m : ℚ) / K.length / (2 * rb) < 1 := by rwa [div_lt_one (by linarith)]
    have hx0 : 0 ≤ (m : ℚ) / K.length / (2 * rb) := div_nonneg (div_nonneg (Nat.cast_nonneg _) hn0.le) (by linarith)
    have hmx : (m : ℚ) = 2 * rb * K.length * ((m : ℚ) / K.length / (2 * rb)) := by field_simp
    have hH0 : 0 < 2 * rb := by linarith
    have hpos : 0 < 1 - (m : ℚ) / K.length / (2 * rb) + 7 * eps := by linarith
    have hle : 1 - (m : ℚ) / K.length / (2 * rb) - 7 * eps ≤ 1 := by linarith
    have := part_tri (fun w => A.rnd (triangular0 A (2 * rb) (draw w) * K.length) < m)
      (x := (m : ℚ) / K.length / (2 * rb)) (z := 7 * eps) hx0 hx1 (by linarith) (fun w hw => ?_) (fun w ht hw => ?_)
    · refine this.trans ?_
      norm_num [eps]
    · have a1 := tri_upper hA hH hH0 (unit_draw w) hpos hw
      have a0 := (triangular0_mem hA hH hH0 (unit_draw w)).1
      have a2 := (rnd_bounds hA (mul_nonneg a0 hn0.le)).2
      generalize (m : ℚ) / K.length / (2 * rb) = x at *
      generalize triangular0 A (2 * rb) (draw w) = v at *
      have a3 : v * K.length * (1 + eps) ≤ 2 * rb * (1 - (1 - x + 7 * eps) + 3 * eps) * (1 + eps) * K.length * (1 + eps) :=
        mul_le_mul_of_nonneg_right (mul_le_mul_of_nonneg_right a1 hn0.le) (by linarith)
      have a4 : 2 * rb * (1 - (1 - x + 7 * eps) + 3 * eps) * (1 + eps) * K.length * (1 + eps) =
        2 * rb * K.length * ((x - 4 * eps) * (1 + eps) ^ 2) := by ring
      have a5 : (x - 4 * eps) * (1 + eps) ^ 2 < x := by nlinarith [mul_pos e0 e0, mul_nonneg hx0 e0.le]
      have a6 := mul_lt_mul_of_pos_left a5 (mul_pos hH0 hn0)
      linarith
    · have a1 := tri_lower hA hH hH0 (unit_draw w) ht hle hw
      rw [not_lt]
      refine le_nearest (hA.rnd _) hrm ?_
      generalize (m : ℚ) / K.length / (2 * rb) = x at *
      have a3 := mul_le_mul_of_nonneg_right a1 hn0.le
      refine le_trans ?_ a3
      rw [hmx]
      have a4 : 2 * rb * (1 - (1 - x - 7 * eps) - 4 * eps) * (1 - eps) * K.length =
        2 * rb * K.length * ((x + 3 * eps) * (1 - eps)) := by ring
      rw [a4]
      refine mul_le_mul_of_nonneg_left ?_ (mul_pos hH0 hn0).le
      nlinarith
  · have hall : (fun w : Fin cases => A.rnd (triangular0 A (2 * rb) (draw w) * K.length) < m) = fun _ => True := by
      funext w
      simp only [eq_iff_iff, iff_true]
      obtain ⟨k, hk, hc⟩ := C134_rank_bound hA K hne rb hr h0 h1 ⟨draw w, draw w⟩ (valid _ _)
      have hle : ⌈2 * rb * K.length⌉₊ ≤ m := by
        rw [Nat.ceil_le]
        rw [not_lt, le_div_iff₀ hn0] at hx
        exact hx
      have := (chosen_iff hA hK hm (variate_small hA hr h0 h1 (valid w w)).1).1 ⟨k, List.take_subset_take_left _ hle hk, hc⟩
      unfold variate at this
      rwa [if_neg (by linarith)] at this
    have : part (fun w => A.rnd (triangular0 A (2 * rb) (draw w) * K.length) < m) = 1 := by
      unfold part
      simp only [hall, Finset.filter_true, Finset.card_univ, Fintype.card_fin, cases_cast]
      norm_num
    rw [this]
    norm_num

/-! ## A larger bias -/

theorem large_facts {rb : ℚ} (hr : Repr 53 rb) (h0 : 1 / 2 < rb) (h1 : rb ≤ 1 - 1 / 2 ^ 26) :
    A.rnd (rb - 1 / 2) = rb - 1 / 2 ∧ Repr 53 (2 * (rb - 1 / 2)) ∧ Repr 53 (1 - 2 * (rb - 1 / 2)) ∧ 1 / 2 ^ 25 ≤ 1 - 2 * (rb - 1 / 2) := by
  obtain ⟨k, k1, k2, hk⟩ := half_grid hr h0 (lt_of_le_of_lt h1 (by norm_num))
  have e1 : Repr 53 (rb - 1 / 2) := by
    have := repr_frac (m := k - 2 ^ 52) (by rw [abs_of_nonneg (by omega)]; omega)
    rw [hk]; convert this using 1; push_cast; ring
  refine ⟨nearest_self e1 (hA.rnd _), ?_, ?_, by norm_num at h1 ⊢; linarith⟩
  · have := repr_scale e1 1
    rwa [zpow_one, mul_comm] at this
  · have := repr_frac (m := 2 * (2 ^ 53 - k)) (by rw [abs_of_nonneg (by omega)]; omega)
    rw [hk]; convert this using 1; push_cast; ring

/-- How often the triangular part is selected. -/
theorem part_select {c : ℚ} (hc0 : 0 < c) (hc1 : c < 1) (hH : Repr 53 (1 - c)) :
    |part (fun w => draw w < A.rnd (A.rnd (1 - c) / A.rnd (1 + c))) - (1 - c) / (1 + c)| ≤ 4 * eps := by
  have e0 := eps_pos
  have e1 := eps_small
  rw [nearest_self hH (hA.rnd (1 - c))]
  have r1 : Repr 53 1 := ⟨1, 0, by norm_num, by norm_num⟩
  obtain ⟨d1, d2⟩ := rnd_bounds hA (x := 1 + c) (by linarith)
  have d3 : 1 ≤ A.rnd (1 + c) := le_nearest (hA.rnd _) r1 (by linarith)
  generalize A.rnd (1 + c) = d at *
  have hd0 : 0 < d := by linarith
  have q0 : 0 ≤ (1 - c) / d := div_nonneg (by linarith) hd0.le
  have q1 : (1 - c) / d ≤ 1 := by rw [div_le_one hd0]; linarith
  obtain ⟨f1, f2⟩ := rnd_bounds hA q0
  have f3 : A.rnd ((1 - c) / d) ≤ 1 := nearest_le (hA.rnd _) r1 q1
  have f4 : 0 ≤ A.rnd ((1 - c) / d) := le_nearest (hA.rnd _) (repr_zero _) q0
  generalize A.rnd ((1 - c) / d) = pr at *
  obtain ⟨b1, b2⟩ := part_bounds (fun w => draw w < pr) f3 f4 (fun w h => h) (fun w h => h.le)
  have hq : (1 - c) / (1 + c) ≤ 1 := by rw [div_le_one (by linarith)]; linarith
  have hq0 : 0 ≤ (1 - c) / (1 + c) := div_nonneg (by linarith) (by linarith)
  have hup : (1 - c) / d ≤ (1 - c) / (1 + c) * (1 + 3 / 2 * eps) := by
    rw [div_le_iff₀ hd0]
    have : (1 - c) / (1 + c) * (1 + 3 / 2 * eps) * ((1 + c) * (1 - eps)) ≤ (1 - c) / (1 + c) * (1 + 3 / 2 * eps) * d :=
      mul_le_mul_of_nonneg_left d1 (mul_nonneg hq0 (by linarith))
    refine le_trans ?_ this
    have e : (1 - c) / (1 + c) * (1 + 3 / 2 * eps) * ((1 + c) * (1 - eps)) = (1 - c) * ((1 + 3 / 2 * eps) * (1 - eps)) := by
      have : 1 + c ≠ 0 := by linarith
      field_simp
    rw [e]
    refine le_mul_of_one_le_right (by linarith) ?_
    nlinarith
  have hlo : (1 - c) / (1 + c) * (1 - eps) ≤ (1 - c) / d := by
    rw [le_div_iff₀ hd0]
    have : (1 - c) / (1 + c) * (1 - eps) * d ≤ (1 - c) / (1 + c) * (1 - eps) * ((1 + c) * (1 + eps)) :=
      mul_le_mul_of_nonneg_left d2 (mul_nonneg hq0 (by linarith))
    refine this.trans ?_
    have e : (1 - c) / (1 + c) * (1 - eps) * ((1 + c) * (1 + eps)) = (1 - c) * ((1 - eps) * (1 + eps)) := by
      have : 1 + c ≠ 0 := by linarith
      field_simp
    rw [e]
    refine mul_le_of_le_one_right (by linarith) ?_
    nlinarith
  generalize part (fun w => draw w < pr) = p at *
  generalize (1 - c) / (1 + c) = q at *
  generalize (1 - c) / d = q' at *
  have g1 : q' * (1 + eps) ≤ q * (1 + 3 / 2 * eps) * (1 + eps) := mul_le_mul_of_nonneg_right hup (by linarith)
  have g2 : q * (1 - eps) * (1 - eps) ≤ q' * (1 - eps) := mul_le_mul_of_nonneg_right hlo (by linarith)
  have g3 : q * (1 + 3 / 2 * eps) * (1 + eps) ≤ q + 3 * eps := by
    have : q * (1 + 3 / 2 * eps) * (1 + eps) = q + q * (5 / 2 * eps + 3 / 2 * eps * eps) := by ring
    rw [this]
    have : q * (5 / 2 * eps + 3 / 2 * eps * eps) ≤ 1 * (5 / 2 * eps + 3 / 2 * eps * eps) := mul_le_mul_of_nonneg_right hq (by positivity)
    nlinarith
  have g4 : q - 2 * eps ≤ q * (1 - eps) * (1 - eps) := by
    have : q * (1 - eps) * (1 - eps) = q - 2 * (q * eps) + q * (eps * eps) := by ring
    rw [this]
    have : q * eps ≤ 1 * eps := mul_le_mul_of_nonneg_right hq e0.le
    have : 0 ≤ q * (eps * eps) := by positivity
    linarith
  rw [abs_le]
  constructor <;> linarith

/-- The flat part. -/
theorem part_flat {c : ℚ} (hc0 : 0 < c) (n m : ℕ) (hn : 0 < n) (hm : m < 2 ^ 53) :
    |part (fun w => A.rnd (uniform0 A c (draw w) * n) < m) - min ((m : ℚ) / n / c) 1| ≤ 3 * eps := by
  have e0 := eps_pos
  have e1 := eps_small
  have hn' : (0 : ℚ) < n := by exact_mod_cast hn
  have hm0 : (0 : ℚ) ≤ m := Nat.cast_nonneg m
  have hrm : Repr 53 (m : ℚ) := repr_nat hm
  have hx0 : 0 ≤ (m : ℚ) / n / c := div_nonneg (div_nonneg hm0 hn'.le) hc0.le
  have hmx : (m : ℚ) = c * n * ((m : ℚ) / n / c) := by field_simp
  have hb0 : 0 ≤ min ((m : ℚ) / n / c) 1 := le_min hx0 zero_le_one
  have hb1 : min ((m : ℚ) / n / c) 1 ≤ 1 := min_le_right _ _
  have hbx : min ((m : ℚ) / n / c) 1 ≤ (m : ℚ) / n / c := min_le_left _ _
  have low : ∀ w, draw w < min ((m : ℚ) / n / c) 1 * (1 - 3 * eps) → A.rnd (uniform0 A c (draw w) * n) < m := by
    intro w h
    have hu := (unit_draw w).nonneg
    generalize draw w = u at *
    generalize min ((m : ℚ) / n / c) 1 = b at *
    generalize (m : ℚ) / n / c = x at *
    unfold uniform0
    have cu := mul_nonneg hc0.le hu
    have a1 := (rnd_bounds hA cu).2
    have a0 : 0 ≤ A.rnd (c * u) := le_nearest (hA.rnd _) (repr_zero _) cu
    generalize A.rnd (c * u) = v at *
    have a2 := (rnd_bounds hA (mul_nonneg a0 hn'.le)).2
    have hbp : 0 < b := by
      by_contra hc
      have : b = 0 := by linarith
      rw [this, zero_mul] at h
      linarith
    have a3 : v * n * (1 + eps) ≤ c * u * (1 + eps) * n * (1 + eps) :=
      mul_le_mul_of_nonneg_right (mul_le_mul_of_nonneg_right a1 hn'.le) (by linarith)
    have a4 : c * u * (1 + eps) * n * (1 + eps) = c * n * (u * (1 + eps) ^ 2) := by ring
    have a5 : u * (1 + eps) ^ 2 < b := by
      have : u * (1 + eps) ^ 2 < b * (1 - 3 * eps) * (1 + eps) ^ 2 := mul_lt_mul_of_pos_right h (by positivity)
      refine this.trans_le ?_
      rw [mul_assoc]
      refine mul_le_of_le_one_right hbp.le ?_
      nlinarith [mul_pos e0 e0, mul_pos (mul_pos e0 e0) e0]
    have a6 := mul_lt_mul_of_pos_left a5 (mul_pos hc0 hn')
    have a7 := mul_le_mul_of_nonneg_left hbx (mul_pos hc0 hn').le
    linarith
  have high : ∀ w, A.rnd (uniform0 A c (draw w) * n) < m → draw w ≤ min ((m : ℚ) / n / c) 1 * (1 + 2 * eps) := by
    intro w h
    have hu := (unit_draw w).nonneg
    have hu1 := (unit_draw w).lt
    have h' : uniform0 A c (draw w) * n < m := by
      by_contra hc
      exact absurd h (not_lt.2 (le_nearest (hA.rnd _) hrm (not_lt.1 hc)))
    unfold uniform0 at h'
    generalize draw w = u at *
    have a1 := (rnd_bounds hA (mul_nonneg hc0.le hu)).1
    have a2 := mul_le_mul_of_nonneg_right a1 hn'.le
    rcases le_total ((m : ℚ) / n / c) 1 with hx | hx
    · rw [min_eq_left hx]
      generalize (m : ℚ) / n / c = x at *
      have a3 : c * n * (u * (1 - eps)) < c * n * x := by
        have : c * u * (1 - eps) * n = c * n * (u * (1 - eps)) := by ring
        linarith
      have a4 := lt_of_mul_lt_mul_left a3 (mul_pos hc0 hn').le
      have a5 : u * (1 - eps) * (1 + 2 * eps) ≤ x * (1 + 2 * eps) := mul_le_mul_of_nonneg_right a4.le (by linarith)
      refine le_trans ?_ a5
      rw [mul_assoc]
      refine le_mul_of_one_le_right hu ?_
      nlinarith
    · rw [min_eq_right hx]
      linarith
  obtain ⟨b1, b2⟩ := part_bounds (fun w => A.rnd (uniform0 A c (draw w) * n) < m) (L := min ((m : ℚ) / n / c) 1 * (1 - 3 * eps))
    (U := min ((m : ℚ) / n / c) 1 * (1 + 2 * eps)) (by nlinarith) (mul_nonneg hb0 (by linarith)) low high
  generalize min ((m : ℚ) / n / c) 1 = b at *
  have g := mul_le_mul_of_nonneg_right hb1 e0.le
  rw [abs_le]
  constructor <;> nlinarith

omit hA in
theorem fall_upper {e c y : ℚ} (e0 : 0 < e) (hc : 0 < c) (hy : 0 ≤ y) (h : c + y < 1) :
    (c + (y - 7 * e + 3 * e * (1 - c)) * (1 + e)) * (1 + e) * (1 + e) < c + y := by
  have ec := mul_pos e0 hc
  have ey : y * e ≤ 1 * e := mul_le_mul_of_nonneg_right (by linarith) e0.le
  have b2 : (y - 7 * e + 3 * e * (1 - c)) * (1 + e) ≤ (y - 4 * e) * (1 + e) := mul_le_mul_of_nonneg_right (by linarith) (by linarith)
  have ee := mul_pos e0 e0
  have b4 : c + (y - 7 * e + 3 * e * (1 - c)) * (1 + e) ≤ c + y - 3 * e := by linarith
  have b5 : (c + (y - 7 * e + 3 * e * (1 - c)) * (1 + e)) * (1 + e) * (1 + e) ≤ (c + y - 3 * e) * (1 + e) * (1 + e) :=
    mul_le_mul_of_nonneg_right (mul_le_mul_of_nonneg_right b4 (by linarith)) (by linarith)
  refine lt_of_le_of_lt b5 ?_
  generalize c + y = s at *
  have c1 : s * e < 1 * e := mul_lt_mul_of_pos_right h e0
  have c2 : s * (e * e) < 1 * (e * e) := mul_lt_mul_of_pos_right h ee
  have c3 : 0 < e * (e * e) := mul_pos e0 ee
  have c4 : (s - 3 * e) * (1 + e) * (1 + e) = s + 2 * (s * e) + s * (e * e) - 3 * e - 6 * (e * e) - 3 * (e * (e * e)) := by ring
  rw [c4]
  linarith

omit hA in
theorem fall_lower {e c y v : ℚ} (e0 : 0 < e) (e1 : e ≤ 1 / 1000) (hc : 0 < c) (h : c + y < 1)
    (hv : (y + 7 * e - 4 * e * (1 - c)) * (1 - e) ≤ v) : c + y ≤ (c + v) * (1 - e) := by
  have ec := mul_pos e0 hc
  have ee := mul_pos e0 e0
  have e2 : e * e ≤ e * (1 / 1000) := mul_le_mul_of_nonneg_left e1 e0.le
  have ey : y * e ≤ 1 * e := mul_le_mul_of_nonneg_right (by linarith) e0.le
  have b2 : (y + 3 * e) * (1 - e) ≤ (y + 7 * e - 4 * e * (1 - c)) * (1 - e) := mul_le_mul_of_nonneg_right (by linarith) (by linarith)
  have b4 : c + y + 3 / 2 * e ≤ c + v := by linarith
  have b5 : (c + y + 3 / 2 * e) * (1 - e) ≤ (c + v) * (1 - e) := mul_le_mul_of_nonneg_right b4 (by linarith)
  refine le_trans ?_ b5
  generalize c + y = s at *
  have c1 : s * e < 1 * e := mul_lt_mul_of_pos_right h e0
  have c4 : (s + 3 / 2 * e) * (1 - e) = s + 3 / 2 * e - s * e - 3 / 2 * (e * e) := by ring
  rw [c4]
  linarith

/-- The falling part. -/
theorem part_fall {c : ℚ} (hc0 : 0 < c) (hrc : Repr 53 c) (hH : Repr 53 (1 - c)) (hH0 : 1 / 2 ^ 25 ≤ 1 - c) (n m : ℕ) (hn : 0 < n)
    (hmn : m < n) (hm : m < 2 ^ 53) :
    (1 - c) * |part (fun w => A.rnd (A.rnd (c + triangular0 A (1 - c) (draw w)) * n) < m) -
      (if (m : ℚ) / n ≤ c then 0 else 1 - (1 - ((m : ℚ) / n - c) / (1 - c)) ^ 2)| ≤ 14 * eps + eps * (1 - c) + eps / 2 ∧
    |part (fun w => A.rnd (A.rnd (c + triangular0 A (1 - c) (draw w)) * n) < m) -
      (if (m : ℚ) / n ≤ c then 0 else 1 - (1 - ((m : ℚ) / n - c) / (1 - c)) ^ 2)| ≤ 1 / 1000 := by
  have e0 := eps_pos
  have e1 := eps_small
  have hn' : (0 : ℚ) < n := by exact_mod_cast hn
  have hm0 : (0 : ℚ) ≤ m := Nat.cast_nonneg m
  have hrm : Repr 53 (m : ℚ) := repr_nat hm
  have hHp : 0 < 1 - c := lt_of_lt_of_le (by norm_num) hH0
  have hX1 : (m : ℚ) / n < 1 := by rw [div_lt_one hn']; exact_mod_cast hmn
  have hmX : (m : ℚ) = (m : ℚ) / n * n := by field_simp
  split_ifs with hX
  · have : part (fun w => A.rnd (A.rnd (c + triangular0 A (1 - c) (draw w)) * n) < m) = 0 := by
      unfold part
      rw [div_eq_zero_iff]
      left
      rw [Nat.cast_eq_zero, Finset.card_eq_zero, Finset.filter_eq_empty_iff]
      intro w _
      rw [not_lt]
      refine le_nearest (hA.rnd _) hrm ?_
      have t0 := (triangular0_mem hA hH hHp (unit_draw w)).1
      have v0 : c ≤ A.rnd (c + triangular0 A (1 - c) (draw w)) := le_nearest (hA.rnd _) hrc (by linarith)
      rw [hmX]
      exact mul_le_mul_of_nonneg_right (hX.trans v0) hn'.le
    rw [this, sub_zero, abs_zero, mul_zero]
    constructor
    · have := mul_pos e0 hHp
      linarith
    · norm_num
  · push Not at hX
    have hx0 : 0 ≤ ((m : ℚ) / n - c) / (1 - c) := div_nonneg (by linarith) hHp.le
    have hx1 : ((m : ℚ) / n - c) / (1 - c) < 1 := by rw [div_lt_one hHp]; linarith
    have hXx : (m : ℚ) / n = c + (1 - c) * (((m : ℚ) / n - c) / (1 - c)) := by field_simp; ring
    have hz : 7 * eps / (1 - c) ≤ 1 / 10 ^ 6 := by
      rw [div_le_iff₀ hHp]
      refine le_trans ?_ (mul_le_mul_of_nonneg_left hH0 (by norm_num))
      norm_num [eps]
    have hz0 : 0 ≤ 7 * eps / (1 - c) := div_nonneg (by linarith) hHp.le
    have hHz : (1 - c) * (7 * eps / (1 - c)) = 7 * eps := by field_simp
    generalize hxe : ((m : ℚ) / n - c) / (1 - c) = x at *
    generalize hze : 7 * eps / (1 - c) = z at *
    have hpos : 0 < 1 - x + z := by linarith
    have hle : 1 - x - z ≤ 1 := by linarith
    have key := part_tri (fun w => A.rnd (A.rnd (c + triangular0 A (1 - c) (draw w)) * n) < m) (x := x) (z := z) hx0 hx1 hz0
      (fun w hw => ?_) (fun w ht hw => ?_)
    · generalize |part (fun w => A.rnd (A.rnd (c + triangular0 A (1 - c) (draw w)) * n) < m) - (1 - (1 - x) ^ 2)| = D at *
      constructor
      · have h1 := mul_le_mul_of_nonneg_left key hHp.le
        have h2 : (1 - c) * (2 * z + z ^ 2 + eps) = 2 * ((1 - c) * z) + (1 - c) * z * z + eps * (1 - c) := by ring
        rw [h2, hHz] at h1
        have h3 : 7 * eps * z ≤ 7 * eps * (1 / 10 ^ 6) := mul_le_mul_of_nonneg_left hz (by linarith)
        norm_num at h3
        linarith
      · have : z ^ 2 ≤ (1 / 10 ^ 6) ^ 2 := pow_le_pow_left₀ hz0 hz 2
        have : eps ≤ 1 / 10 ^ 6 := by norm_num [eps]
        norm_num at *
        linarith
    · have a1 := tri_upper hA hH hHp (unit_draw w) hpos hw
      have a0 := (triangular0_mem hA hH hHp (unit_draw w)).1
      generalize triangular0 A (1 - c) (draw w) = v at *
      have a2 := (rnd_bounds hA (x := c + v) (by linarith)).2
      have a3 : 0 ≤ A.rnd (c + v) := le_nearest (hA.rnd _) (repr_zero _) (by linarith)
      generalize A.rnd (c + v) = v' at *
      have a4 := (rnd_bounds hA (mul_nonneg a3 hn'.le)).2
      refine lt_of_le_of_lt a4 ?_
      rw [hmX, hXx]
      have a5 : v' * n * (1 + eps) = v' * (1 + eps) * n := by ring
      rw [a5]
      refine mul_lt_mul_of_pos_right ?_ hn'
      have a6 : v' * (1 + eps) ≤ (c + (1 - c) * (1 - (1 - x + z) + 3 * eps) * (1 + eps)) * (1 + eps) * (1 + eps) :=
        mul_le_mul_of_nonneg_right (a2.trans (mul_le_mul_of_nonneg_right (by linarith) (by linarith))) (by linarith)
      refine lt_of_le_of_lt a6 ?_
      have a7 : (1 - c) * (1 - (1 - x + z) + 3 * eps) = (1 - c) * x - 7 * eps + 3 * eps * (1 - c) := by
        rw [← hHz]; ring
      rw [a7]
      have hy0 : 0 ≤ (1 - c) * x := mul_nonneg hHp.le hx0
      have hy1 : c + (1 - c) * x < 1 := by rw [← hXx]; exact hX1
      generalize (1 - c) * x = y at *
      exact fall_upper e0 hc0 hy0 hy1
    · have a1 := tri_lower hA hH hHp (unit_draw w) ht hle hw
      have a0 := (triangular0_mem hA hH hHp (unit_draw w)).1
      rw [not_lt]
      refine le_nearest (hA.rnd _) hrm ?_
      rw [hmX]
      refine mul_le_mul_of_nonneg_right ?_ hn'.le
      generalize triangular0 A (1 - c) (draw w) = v at *
      have a2 := (rnd_bounds hA (x := c + v) (by linarith)).1
      refine le_trans ?_ a2
      rw [hXx]
      have a7 : (1 - c) * (1 - (1 - x - z) - 4 * eps) = (1 - c) * x + 7 * eps - 4 * eps * (1 - c) := by
        rw [← hHz]; ring
      rw [a7] at a1
      have hy0 : 0 ≤ (1 - c) * x := mul_nonneg hHp.le hx0
      have hy1 : c + (1 - c) * x < 1 := by rw [← hXx]; exact hX1
      generalize (1 - c) * x = y at *
      exact fall_lower e0 e1 hc0 hy1 a1

omit hA in
/-- Three errors together. -/
theorem mix_error {e α q p₁ p₂ a b : ℚ} (hα0 : 0 ≤ α) (hα1 : α ≤ 1) (hα : |α - q| ≤ 4 * e)
    (ha0 : 0 ≤ a) (ha1 : a ≤ 1) (hb0 : 0 ≤ b) (hb1 : b ≤ 1) (h1 : α * |p₁ - a| ≤ 16 * e) (h2 : |p₂ - b| ≤ 3 * e) :
    |α * p₁ + (1 - α) * p₂ - (q * a + (1 - q) * b)| ≤ 24 * e := by
  have e0 : 0 ≤ e := by
    have := abs_nonneg (p₂ - b)
    linarith
  have h3 : α * p₁ + (1 - α) * p₂ - (q * a + (1 - q) * b) = α * (p₁ - a) + (1 - α) * (p₂ - b) + (α - q) * (a - b) := by ring
  rw [h3]
  have h4 : |(1 - α) * (p₂ - b)| ≤ 3 * e := by
    rw [abs_mul, abs_of_nonneg (by linarith)]
    exact (mul_le_of_le_one_left (abs_nonneg _) (by linarith)).trans h2
  have h5 : |(α - q) * (a - b)| ≤ 4 * e := by
    rw [abs_mul]
    exact (mul_le_of_le_one_right (abs_nonneg _) (by rw [abs_le]; constructor <;> linarith)).trans hα
  have h6 : |α * (p₁ - a)| ≤ 16 * e := by rwa [abs_mul, abs_of_nonneg hα0]
  calc |α * (p₁ - a) + (1 - α) * (p₂ - b) + (α - q) * (a - b)|
      ≤ |α * (p₁ - a)| + |(1 - α) * (p₂ - b)| + |(α - q) * (a - b)| := abs_add_three _ _ _
    _ ≤ 24 * e := by linarith

omit hA in
theorem part_mem' (P : Fin cases → Prop) [DecidablePred P] : 0 ≤ part P ∧ part P ≤ 1 := by
  unfold part
  have : ((Finset.univ.filter P).card : ℚ) ≤ 2 ^ 53 := by
    have h := Finset.card_le_univ (Finset.univ.filter P)
    rw [Fintype.card_fin] at h
    have h' : ((Finset.univ.filter P).card : ℚ) ≤ (cases : ℕ) := by exact_mod_cast h
    rwa [cases_cast] at h'
  exact ⟨div_nonneg (Nat.cast_nonneg _) (by norm_num), div_le_one_of_le₀ this (by norm_num)⟩

theorem large_share (K : List ℕ) (hK : K.Nodup) (hn : K.length < 2 ^ 53) (rb : ℚ) (hr : Repr 53 rb) (h0 : 1 / 2 < rb)
    (h1 : rb ≤ 1 - 1 / 2 ^ 26) (m : ℕ) (hm : m < K.length) (hne : K ≠ []) :
    |(best A K rb m : ℚ) / 2 ^ 106 -
      (if (m : ℚ) / K.length ≤ 2 * (rb - 1 / 2) then (m : ℚ) / K.length / rb
        else 1 - (1 - (m : ℚ) / K.length) ^ 2 / (1 - (2 * (rb - 1 / 2)) ^ 2))| ≤ 24 / 2 ^ 53 := by
  classical
  have e0 := eps_pos
  have e1 := eps_small
  have hn1 : 0 < K.length := List.length_pos_iff.2 hne
  have hn0 : (0 : ℚ) < K.length := by exact_mod_cast hn1
  have valid : ∀ a b : Fin cases, (⟨draw a, draw b⟩ : Draw).Valid := fun a b => ⟨unit_draw a, unit_draw b⟩
  obtain ⟨f1, f2, f3, f4⟩ := large_facts hA hr h0 h1
  have hrb : rb = (1 + 2 * (rb - 1 / 2)) / 2 := by ring
  have key : (best A K rb m : ℚ) / 2 ^ 106 =
      part (fun w => draw w < A.rnd (A.rnd (1 - 2 * (rb - 1 / 2)) / A.rnd (1 + 2 * (rb - 1 / 2)))) *
        part (fun w => A.rnd (A.rnd (2 * (rb - 1 / 2) + triangular0 A (1 - 2 * (rb - 1 / 2)) (draw w)) * K.length) < m) +
      (1 - part (fun w => draw w < A.rnd (A.rnd (1 - 2 * (rb - 1 / 2)) / A.rnd (1 + 2 * (rb - 1 / 2))))) *
        part (fun w => A.rnd (uniform0 A (2 * (rb - 1 / 2)) (draw w) * K.length) < m) := by
    rw [← pair_count]
    unfold best
    refine congrArg (fun s : Finset (Fin cases × Fin cases) => ((s.card : ℕ) : ℚ) / 2 ^ 106) (Finset.filter_congr fun w _ => ?_)
    rw [chosen_iff hA hK hm.le (variate_large hA hr h0 h1 (valid _ _)).2.1]
    unfold variate
    rw [if_pos h0, f1]
    unfold trapz
    dsimp only
    have hlt : ¬ 1 ≤ 2 * (rb - 1 / 2) := by
      have : (0 : ℚ) < 1 / 2 ^ 25 := by norm_num
      linarith
    rw [if_neg hlt]
    have f5 : A.rnd (1 - 2 * (rb - 1 / 2)) = 1 - 2 * (rb - 1 / 2) := nearest_self f3 (hA.rnd _)
    rw [f5]
    split_ifs <;> rfl
  rw [key]
  have hc0 : 0 < 2 * (rb - 1 / 2) := by linarith
  generalize hce : 2 * (rb - 1 / 2) = c at *
  clear key
  have hc1 : c < 1 := by
    have : (0 : ℚ) < 1 / 2 ^ 25 := by norm_num
    linarith
  have s1 := part_select hA hc0 hc1 f3
  obtain ⟨t1, t2⟩ := part_fall hA hc0 f2 f3 f4 K.length m hn1 hm (by omega)
  have u1 := part_flat hA hc0 K.length m hn1 (by omega)
  obtain ⟨α0, α1⟩ := part_mem' (fun w => draw w < A.rnd (A.rnd (1 - c) / A.rnd (1 + c)))
  generalize part (fun w => draw w < A.rnd (A.rnd (1 - c) / A.rnd (1 + c))) = α at *
  generalize part (fun w => A.rnd (A.rnd (c + triangular0 A (1 - c) (draw w)) * K.length) < m) = p₁ at *
  generalize part (fun w => A.rnd (uniform0 A c (draw w) * K.length) < m) = p₂ at *
  have hX0 : 0 ≤ (m : ℚ) / K.length := div_nonneg (Nat.cast_nonneg _) hn0.le
  have hX1 : (m : ℚ) / K.length < 1 := by rw [div_lt_one hn0]; exact_mod_cast hm
  generalize (m : ℚ) / K.length = X at *
  have he : (24 : ℚ) / 2 ^ 53 = 24 * eps := by unfold eps; ring
  rw [he]
  have hq : (1 - c) / (1 + c) ≤ 1 - c := div_le_self (by linarith) (by linarith)
  have hH : 0 < 1 - c := by linarith
  have w1 : ∀ D : ℚ, 0 ≤ D → (1 - c) * D ≤ 14 * eps + eps * (1 - c) + eps / 2 → D ≤ 1 / 1000 → α * D ≤ 16 * eps := by
    intro D d0 d1 d2
    have d3 : α ≤ (1 - c) + 4 * eps := by
      have := (abs_le.1 s1).2
      linarith
    have d4 := mul_le_mul_of_nonneg_right d3 d0
    have d5 : eps * D ≤ eps * (1 / 1000) := mul_le_mul_of_nonneg_left d2 e0.le
    have d6 : 0 < eps * c := mul_pos e0 hc0
    linarith
  have b0 : 0 ≤ min (X / c) 1 := le_min (div_nonneg hX0 hc0.le) zero_le_one
  by_cases hx : X ≤ c
  · rw [if_pos hx] at t1 t2 ⊢
    have hb : min (X / c) 1 = X / c := min_eq_left (by rw [div_le_one hc0]; exact hx)
    have := mix_error α0 α1 s1 le_rfl zero_le_one b0 (min_le_right _ _) (w1 _ (abs_nonneg _) t1 t2) u1
    rw [hb] at this
    have e : (1 - c) / (1 + c) * 0 + (1 - (1 - c) / (1 + c)) * (X / c) = X / rb := by
      have h2 : 1 + c ≠ 0 := by linarith
      have h3 : 1 - (1 - c) / (1 + c) = 2 * c / (1 + c) := by field_simp; ring
      rw [h3, mul_zero, zero_add, hrb]
      have : c ≠ 0 := hc0.ne'
      field_simp
    rwa [e] at this
  · rw [if_neg hx] at t1 t2 ⊢
    push Not at hx
    have hb : min (X / c) 1 = 1 := min_eq_right (by rw [le_div_iff₀ hc0]; linarith)
    have x0 : 0 ≤ (X - c) / (1 - c) := div_nonneg (by linarith) hH.le
    have x1 : (X - c) / (1 - c) ≤ 1 := by rw [div_le_one hH]; linarith
    have y0 : 0 ≤ 1 - (1 - (X - c) / (1 - c)) ^ 2 := by nlinarith
    have y1 : 1 - (1 - (X - c) / (1 - c)) ^ 2 ≤ 1 := by nlinarith
    have := mix_error α0 α1 s1 y0 y1 b0 (min_le_right _ _) (w1 _ (abs_nonneg _) t1 t2) u1
    rw [hb] at this
    have e : (1 - c) / (1 + c) * (1 - (1 - (X - c) / (1 - c)) ^ 2) + (1 - (1 - c) / (1 + c)) * 1 = 1 - (1 - X) ^ 2 / (1 - c ^ 2) := by
      have h1 : 1 - (X - c) / (1 - c) = (1 - X) / (1 - c) := by field_simp; ring
      have h2 : 1 - c ^ 2 = (1 - c) * (1 + c) := by ring
      have h3 : 1 + c ≠ 0 := by linarith
      have h4 : 1 - c ≠ 0 := hH.ne'
      rw [h1, h2]
      field_simp
      ring
    rwa [e] at this

/-- All candidates: one of them is always chosen. -/
theorem full_share (K : List ℕ) (hK : K.Nodup) (hn : K.length < 2 ^ 53) (rb : ℚ) (hr : Repr 53 rb) (h0 : 1 / 2 < rb)
    (h1 : rb ≤ 1 - 1 / 2 ^ 26) (hne : K ≠ []) : (best A K rb K.length : ℚ) / 2 ^ 106 = 1 := by
  classical
  have valid : ∀ a b : Fin cases, (⟨draw a, draw b⟩ : Draw).Valid := fun a b => ⟨unit_draw a, unit_draw b⟩
  have := pair_count (fun _ => True) (fun _ => True) (fun _ => True)
  have ht : part (fun _ => True) = 1 := by
    unfold part
    rw [Finset.filter_true, Finset.card_univ, Fintype.card_fin, cases_cast, div_self (by norm_num)]
  rw [ht, one_mul, sub_self, zero_mul, add_zero] at this
  rw [← this]
  unfold best
  refine congrArg (fun s : Finset (Fin cases × Fin cases) => ((s.card : ℕ) : ℚ) / 2 ^ 106) (Finset.filter_congr fun w _ => ?_)
  have hv := variate_large hA hr h0 h1 (valid w.1 w.2)
  rw [chosen_iff hA hK le_rfl hv.2.1]
  have := scaled_below hv.1 hv.2.2 (List.length_pos_iff.2 hne) hn (hA.rnd _)
  simp [this]

/-! ## C162 -/

/-- C162: in floating-point arithmetic, with the random numbers of the machine, one of the best `m` of `n` candidates is
chosen in a share of all cases that is the area under the density from `0` to `m / n`, up to an error of 24 parts in
`2 ^ 53`. -/
theorem C162_best_share (K : List ℕ) (hK : K.Nodup) (hne : K ≠ []) (hn : K.length < 2 ^ 53) (rb : ℚ) (hr : Repr 53 rb) (h0 : 0 < rb)
    (h1 : rb ≤ 1 - 1 / 2 ^ 26) (m : ℕ) (hm : m ≤ K.length) :
    |(best A K rb m : ℝ) / 2 ^ 106 - Sampler.area rb (m / K.length)| ≤ 24 / 2 ^ 53 := by
  have hn0 : (0 : ℚ) < K.length := by exact_mod_cast List.length_pos_iff.2 hne
  have hn0' : (0 : ℝ) < K.length := by exact_mod_cast hn0
  have h0' : (0 : ℝ) < rb := by exact_mod_cast h0
  have h1' : (rb : ℝ) ≤ 1 := by
    have : rb ≤ 1 := h1.trans (by norm_num)
    exact_mod_cast this
  rcases le_or_gt rb (1 / 2) with h | h
  · have key := small_share hA K hK hn rb hr h0 h m hm hne
    have h' : (rb : ℝ) ≤ 1 / 2 := by
      have : ((rb : ℚ) : ℝ) ≤ ((1 / 2 : ℚ) : ℝ) := by exact_mod_cast h
      simpa using this
    rw [Sampler.area_low h0' h' (div_nonneg (Nat.cast_nonneg _) hn0'.le)]
    have c : ((m : ℝ) / K.length < 2 * rb) ↔ ((m : ℚ) / K.length < 2 * rb) := by
      have : ((m : ℝ) / K.length < 2 * rb) ↔ ((((m : ℚ) / K.length : ℚ) : ℝ) < ((2 * rb : ℚ) : ℝ)) := by push_cast; rfl
      rw [this, Rat.cast_lt]
    simp only [c]
    have := (Rat.cast_le (K := ℝ)).2 key
    split_ifs at this ⊢ <;> push_cast at this ⊢ <;> exact this
  · rcases Nat.lt_or_ge m K.length with hlt | hge
    · have key := large_share hA K hK hn rb hr h h1 m hlt hne
      have h' : 1 / 2 ≤ (rb : ℝ) := by
        have : ((1 / 2 : ℚ) : ℝ) ≤ ((rb : ℚ) : ℝ) := by exact_mod_cast h.le
        simpa using this
      rw [Sampler.area_high h' h1']
      have c : ((m : ℝ) / K.length < 2 * rb - 1) ↔ ((m : ℚ) / K.length < 2 * rb - 1) := by
        have : ((m : ℝ) / K.length < 2 * rb - 1) ↔ ((((m : ℚ) / K.length : ℚ) : ℝ) < ((2 * rb - 1 : ℚ) : ℝ)) := by push_cast; rfl
        rw [this, Rat.cast_lt]
      have d : (m : ℝ) / K.length < 1 := by rw [div_lt_one hn0']; exact_mod_cast hlt
      rw [if_pos d]
      simp only [c]
      have e : (if (m : ℚ) / K.length ≤ 2 * (rb - 1 / 2) then (m : ℚ) / K.length / rb
          else 1 - (1 - (m : ℚ) / K.length) ^ 2 / (1 - (2 * (rb - 1 / 2)) ^ 2)) =
          if (m : ℚ) / K.length < 2 * rb - 1 then (m : ℚ) / K.length / rb
            else 1 - (1 - (m : ℚ) / K.length) ^ 2 / (1 - (2 * rb - 1) ^ 2) := by
        have e1 : 2 * (rb - 1 / 2) = 2 * rb - 1 := by ring
        rw [e1]
        have g1 : rb < 1 := lt_of_le_of_lt h1 (by norm_num)
        generalize (m : ℚ) / K.length = X at *
        rcases lt_trichotomy X (2 * rb - 1) with g | g | g
        · rw [if_pos g.le, if_pos g]
        · rw [if_pos g.le, if_neg g.not_lt, g]
          have e2 : 1 - (2 * rb - 1) ^ 2 = 4 * rb * (1 - rb) := by ring
          have e3 : 1 - rb ≠ 0 := by linarith
          rw [e2]
          field_simp
          ring
        · rw [if_neg (not_le.2 g), if_neg g.not_gt]
      rw [e] at key
      have := (Rat.cast_le (K := ℝ)).2 key
      split_ifs at this ⊢ <;> push_cast at this ⊢ <;> exact this
    · have hmK : m = K.length := le_antisymm hm hge
      subst hmK
      have key := full_share hA K hK hn rb hr h h1 hne
      have : (best A K rb K.length : ℝ) / 2 ^ 106 = 1 := by
        have := congrArg (fun q : ℚ => (q : ℝ)) key
        push_cast at this
        exact this
      rw [this, div_self hn0'.ne', Sampler.area_one h0' h1' le_rfl, sub_self, abs_zero]
      norm_num

set_option linter.constructorNameAsVariable false in
omit hA in
theorem best_succ {K : List ℕ} (hK : K.Nodup) (rb : ℚ) {j : ℕ} (hj : j < K.length) :
    best A K rb (j + 1) = best A K rb j + hits A K rb K[j] := by
  unfold best hits
  rw [← Finset.card_union_of_disjoint]
  · refine congrArg Finset.card ?_
    ext w
    simp only [Finset.mem_filter, Finset.mem_univ, true_and, Finset.mem_union]
    rw [List.take_add_one, List.getElem?_eq_getElem hj]
    simp only [List.mem_append, Option.toList_some, List.mem_singleton, or_and_right, exists_or, exists_eq_left]
  · rw [Finset.disjoint_left]
    intro w h1 h2
    rw [Finset.mem_filter] at h1 h2
    obtain ⟨k, hk, hc⟩ := h1.2
    rw [h2.2, Option.some.injEq] at hc
    obtain ⟨i, hi, he⟩ := List.mem_take_iff_getElem.1 hk
    rw [← hc] at he
    have := (List.Nodup.getElem_inj_iff hK).1 he
    have : i < j := lt_of_lt_of_le hi (min_le_left _ _)
    omega

/-- C162: each candidate is chosen in a share of all cases that is the area under the density over its own interval,
up to an error of 48 parts in `2 ^ 53`. -/
theorem C162_each_share (K : List ℕ) (hK : K.Nodup) (hn : K.length < 2 ^ 53) (rb : ℚ) (hr : Repr 53 rb) (h0 : 0 < rb)
    (h1 : rb ≤ 1 - 1 / 2 ^ 26) (j : ℕ) (hj : j < K.length) :
    |(hits A K rb K[j] : ℝ) / 2 ^ 106 - ∫ x in ((j : ℕ) / K.length : ℝ)..((j + 1 : ℕ) / K.length), Sampler.density rb x| ≤ 48 / 2 ^ 53 := by
  have hne : K ≠ [] := List.ne_nil_of_length_pos (by omega)
  have h0' : (0 : ℝ) < rb := by exact_mod_cast h0
  have h1' : (rb : ℝ) ≤ 1 := by
    have : rb ≤ 1 := h1.trans (by norm_num)
    exact_mod_cast this
  rw [Sampler.area_integral h0' h1']
  have a := C162_best_share hA K hK hne hn rb hr h0 h1 j hj.le
  have b := C162_best_share hA K hK hne hn rb hr h0 h1 (j + 1) hj
  rw [best_succ hK rb hj] at b
  rw [Nat.cast_add, add_div] at b
  generalize (best A K rb j : ℝ) / 2 ^ 106 = p at *
  generalize (hits A K rb K[j] : ℝ) / 2 ^ 106 = q at *
  rw [abs_le] at *
  constructor <;> [skip; skip] <;> ring_nf at a b ⊢ <;> linarith [a.1, a.2, b.1, b.2]

/-- C162: the share of a candidate differs from its probability with exact real numbers by at most 48 parts in `2 ^ 53`. -/
theorem C162_as_in_theory (K : List ℕ) (hK : K.Nodup) (hn : K.length < 2 ^ 53) (rb : ℚ) (hr : Repr 53 rb) (h0 : 0 < rb)
    (h1 : rb ≤ 1 - 1 / 2 ^ 26) (k : ℕ) (hk : k ∈ K) :
    |(hits A K rb k : ℝ) / 2 ^ 106 - Sampler.prob K rb k| ≤ 48 / 2 ^ 53 := by
  obtain ⟨j, hj, rfl⟩ := List.getElem_of_mem hk
  have h0' : (0 : ℝ) < rb := by exact_mod_cast h0
  have h1' : (rb : ℝ) ≤ 1 := by
    have : rb ≤ 1 := h1.trans (by norm_num)
    exact_mod_cast this
  rw [Sampler.C77_probability K hK rb h0' h1' j hj]
  exact C162_each_share hA K hK hn rb hr h0 h1 j hj

/-- C162: the same for the result of `sample`, which chooses among the individuals that are not excluded. -/
theorem C162_sample (KS ex : List ℕ) (hK : KS.Nodup) (hn : KS.length < 2 ^ 53) (rb : ℚ) (hr : Repr 53 rb) (h0 : 0 < rb)
    (h1 : rb ≤ 1 - 1 / 2 ^ 26) (k : ℕ) (hk : k ∈ KS) (hx : k ∉ ex) :
    |(((Finset.univ.filter fun w : Fin cases × Fin cases => sampleOne A KS ex rb ⟨draw w.1, draw w.2⟩ = .value [k]).card : ℕ) : ℝ) / 2 ^ 106 -
      Sampler.prob (KS.filter fun i => i ∉ ex) rb k| ≤ 48 / 2 ^ 53 := by
  have e : Sampler.candidates KS ex = KS.filter fun i => i ∉ ex :=
    List.filter_congr fun i _ => by simp
  have key := C162_as_in_theory hA (KS.filter fun i => i ∉ ex) (hK.filter _) (lt_of_le_of_lt (List.length_filter_le _ _) hn) rb hr h0 h1 k
    (by rw [List.mem_filter]; exact ⟨hk, by simpa using hx⟩)
  have hb : ¬ 1 < rb := not_lt.2 (h1.trans (by norm_num))
  have h2 : (Finset.univ.filter fun w : Fin cases × Fin cases => sampleOne A KS ex rb ⟨draw w.1, draw w.2⟩ = .value [k]).card =
      hits A (KS.filter fun i => i ∉ ex) rb k := by
    unfold hits
    refine congrArg Finset.card (Finset.filter_congr fun w _ => ?_)
    unfold sampleOne
    dsimp only
    rw [if_neg hb, e]
    generalize call A (KS.filter fun i => i ∉ ex) rb ⟨draw w.1, draw w.2⟩ = c
    rcases c with _ | c <;> simp
  rw [h2]
  exact key

set_option linter.constructorNameAsVariable false in
/-- C134: with a setting too close to one, an `IndexError` is rare: of all cases of the two random numbers, a share of at most
six times the distance of the setting from one. -/
theorem C134_error_rare (K : List ℕ) (hne : K ≠ []) (hn : K.length < 2 ^ 53) (rb : ℚ) (hr : Repr 53 rb) (h0 : 1 / 2 < rb) (h1 : rb < 1) :
    (((Finset.univ.filter fun w : Fin cases × Fin cases => call A K rb ⟨draw w.1, draw w.2⟩ = none).card : ℕ) : ℚ) / 2 ^ 106 ≤
      6 * (1 - rb) := by
  classical
  have e0 := eps_pos
  have e1 := eps_small
  obtain ⟨k, k1, k2, hk⟩ := half_grid hr h0 h1
  have g1 : Repr 53 (rb - 1 / 2) := by
    have := repr_frac (m := k - 2 ^ 52) (by rw [abs_of_nonneg (by omega)]; omega)
    rw [hk]; convert this using 1; push_cast; ring
  have f1 : A.rnd (rb - 1 / 2) = rb - 1 / 2 := nearest_self g1 (hA.rnd _)
  have f2 : Repr 53 (2 * (rb - 1 / 2)) := by
    have := repr_scale g1 1
    rwa [zpow_one, mul_comm] at this
  have f3 : Repr 53 (1 - 2 * (rb - 1 / 2)) := by
    have := repr_frac (m := 2 * (2 ^ 53 - k)) (by rw [abs_of_nonneg (by omega)]; omega)
    rw [hk]; convert this using 1; push_cast; ring
  have hgap : eps ≤ 1 - rb := by
    have : (k : ℚ) + 1 ≤ 2 ^ 53 := by exact_mod_cast k2
    rw [hk]
    unfold eps
    rw [le_sub_iff_add_le, ← add_div, div_le_one (by norm_num)]
    linarith
  have hs := part_select hA (c := 2 * (rb - 1 / 2)) (by linarith) (by linarith) f3
  have hsub : (((Finset.univ.filter fun w : Fin cases × Fin cases => call A K rb ⟨draw w.1, draw w.2⟩ = none).card : ℕ) : ℚ) / 2 ^ 106 ≤
      part (fun w => draw w < A.rnd (A.rnd (1 - 2 * (rb - 1 / 2)) / A.rnd (1 + 2 * (rb - 1 / 2)))) := by
    have := pair_count (fun w => draw w < A.rnd (A.rnd (1 - 2 * (rb - 1 / 2)) / A.rnd (1 + 2 * (rb - 1 / 2)))) (fun _ => True) (fun _ => False)
    have ht : part (fun _ => True) = 1 := by
      unfold part
      rw [Finset.filter_true, Finset.card_univ, Fintype.card_fin, cases_cast, div_self (by norm_num)]
    have hf : part (fun _ => False) = 0 := by
      unfold part
      rw [Finset.filter_false, Finset.card_empty, Nat.cast_zero, zero_div]
    rw [ht, hf, mul_one, mul_zero, add_zero] at this
    rw [← this]
    refine div_le_div_of_nonneg_right ?_ (by norm_num)
    refine Nat.cast_le.2 (Finset.card_le_card (Finset.monotone_filter_right _ fun w _ hw => ?_))
    by_contra hc
    have hsel : ¬ draw w.1 < A.rnd (A.rnd (1 - 2 * (rb - 1 / 2)) / A.rnd (1 + 2 * (rb - 1 / 2))) :=
      fun h => hc (by rw [if_pos h]; exact trivial)
    have hv : variate A rb ⟨draw w.1, draw w.2⟩ = A.rnd (2 * (rb - 1 / 2) * draw w.2) := by
      unfold variate
      rw [if_pos h0, f1]
      unfold trapz
      dsimp only
      have hlt : ¬ 1 ≤ 2 * (rb - 1 / 2) := by linarith
      rw [if_neg hlt, if_neg hsel]
      rfl
    have hu := unit_draw w.2
    have hu0 := hu.nonneg
    have hc0 : 0 ≤ 2 * (rb - 1 / 2) := by linarith
    have v0 : 0 ≤ A.rnd (2 * (rb - 1 / 2) * draw w.2) := le_nearest (hA.rnd _) (repr_zero _) (mul_nonneg hc0 hu0)
    have v1 : A.rnd (2 * (rb - 1 / 2) * draw w.2) < 1 :=
      lt_of_le_of_lt (nearest_le (hA.rnd _) hu.repr (mul_le_of_le_one_left hu0 (by linarith))) hu.lt
    obtain ⟨y0, hcall⟩ := call_of_nonneg hA (K := K) (rb := rb) (d := ⟨draw w.1, draw w.2⟩) (by rw [hv]; exact v0)
    rw [hv] at y0 hcall
    have hy := scaled_below (hA.rnd (2 * (rb - 1 / 2) * draw w.2)).1 v1 (List.length_pos_iff.2 hne) hn (hA.rnd _)
    have hfl := (Nat.floor_lt y0).2 hy
    rw [hw, List.getElem?_eq_getElem hfl] at hcall
    exact absurd hcall (by simp)
  have hq : (1 - 2 * (rb - 1 / 2)) / (1 + 2 * (rb - 1 / 2)) ≤ 2 * (1 - rb) := by
    rw [div_le_iff₀ (by linarith)]
    nlinarith
  have := (abs_le.1 hs).2
  linarith

end

namespace Demo

example := C134_error_rare floats [4, 2, 7] (by simp) (by simp) (1 - 1 / 2 ^ 30) ⟨2 ^ 30 - 1, -30, by norm_num, by rw [zpow_neg]; norm_num⟩
  (by norm_num) (by norm_num)
example := C162_best_share floats [4, 2, 7] (by decide) (by simp) (by simp) (3 / 4) ⟨3, -2, by norm_num, by norm_num⟩
  (by norm_num) (by norm_num) 2 (by simp)
example := C162_each_share floats [4, 2, 7] (by decide) (by simp) (3 / 4) ⟨3, -2, by norm_num, by norm_num⟩
  (by norm_num) (by norm_num) 2 (by simp)
example := C162_as_in_theory floats [4, 2, 7] (by decide) (by simp) (3 / 8) ⟨3, -3, by norm_num, by norm_num⟩
  (by norm_num) (by norm_num) 7 (by simp)
example := C162_sample floats [4, 2, 7] [2] (by decide) (by simp) (3 / 4) ⟨3, -2, by norm_num, by norm_num⟩
  (by norm_num) (by norm_num) 7 (by simp) (by simp)

end Demo

end SamplerRounded
end Ade
