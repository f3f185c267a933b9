import Verif.Props.SamplerProb
import Mathlib.Probability.ProductMeasure
import Mathlib.Analysis.SpecificLimits.Basic

/-!
# Property C13: a request for several members ends with probability one

The results of `random.random()` behind the calls of the sampler are an infinite sequence of independent points of the
unit square, all parts of equal area being equally likely.
-/

set_option autoImplicit false

namespace Ade
namespace Sampler

open MeasureTheory Set Filter

/-! ## Specification -/

/-- The distribution of the two results of `random.random()` behind one call of the sampler: uniform on the unit
square. -/
noncomputable def square : Measure (ℝ × ℝ) := volume.restrict (Ico (0 : ℝ) 1 ×ˢ Ico (0 : ℝ) 1)

theorem square_univ : square univ = 1 := by
  rw [square, Measure.restrict_apply_univ, Measure.volume_eq_prod, Measure.prod_prod, Real.volume_Ico]
  simp

instance : IsProbabilityMeasure square := ⟨square_univ⟩

/-- The distribution of the whole sequence of results: the pairs are independent and all distributed alike. -/
noncomputable def endless : Measure (ℕ → ℝ × ℝ) := Measure.infinitePi fun _ => square

instance : IsProbabilityMeasure endless := by unfold endless; infer_instance

/-- The first `t` draws of a sequence. -/
def firstDraws (ω : ℕ → ℝ × ℝ) (t : ℕ) : List Draw := (List.range t).map fun i => ⟨(ω i).1, (ω i).2⟩

/-! ## Lemmas -/

theorem mem_firstDraws {ω : ℕ → ℝ × ℝ} {t i : ℕ} (hi : i < t) : ⟨(ω i).1, (ω i).2⟩ ∈ firstDraws ω t :=
  List.mem_map.2 ⟨i, List.mem_range.2 hi, rfl⟩

theorem exists_of_mem_firstDraws {ω : ℕ → ℝ × ℝ} {t : ℕ} {d : Draw} (h : d ∈ firstDraws ω t) :
    ∃ i < t, d = ⟨(ω i).1, (ω i).2⟩ := by
  obtain ⟨i, hi, rfl⟩ := List.mem_map.1 h
  exact ⟨i, List.mem_range.1 hi, rfl⟩

/-- The loop has returned once each of `N` different members has been drawn. -/
theorem loop_covered {rb : ℝ} {K : List ℕ} {N : ℕ} (S : List ℕ) (hS : S.Nodup) (hSN : N ≤ S.length) (ds : List Draw)
    (hds : ∀ d ∈ ds, ∃ k, call K rb d = some k) (result : List ℕ)
    (hcov : ∀ k ∈ S, k ∈ result ∨ ∃ d ∈ ds, call K rb d = some k) :
    ∃ ks, loop K rb N result ds = .value ks := by
  induction ds generalizing result with
  | nil =>
    have hsub : S ⊆ result := fun k hk => by simpa using hcov k hk
    have := (List.subperm_of_subset hS hsub).length_le
    refine ⟨result, ?_⟩
    unfold loop
    rw [if_neg (by omega)]
  | cons d ds ih =>
    unfold loop
    split
    · obtain ⟨k, hk⟩ := hds d (by simp)
      have hds' : ∀ d ∈ ds, ∃ k, call K rb d = some k := fun d hd => hds d (by simp [hd])
      simp only [hk]
      split
      · rename_i hkr
        refine ih hds' result fun k' hk' => ?_
        rcases hcov k' hk' with h | ⟨d', hd', h⟩
        · exact .inl h
        · rcases List.mem_cons.1 hd' with rfl | hd'
          · rw [hk] at h
            injection h with h
            exact .inl (h ▸ hkr)
          · exact .inr ⟨d', hd', h⟩
      · refine ih hds' (result ++ [k]) fun k' hk' => ?_
        rcases hcov k' hk' with h | ⟨d', hd', h⟩
        · exact .inl (by simp [h])
        · rcases List.mem_cons.1 hd' with rfl | hd'
          · rw [hk] at h
            injection h with h
            exact .inl (by simp [h])
          · exact .inr ⟨d', hd', h⟩
    · exact ⟨result, rfl⟩

theorem density_pos {rb : ℝ} (h0 : 0 < rb) (h1 : rb ≤ 1) {x : ℝ} (hx : x < finish rb) : 0 < density rb x := by
  obtain ⟨_, hcw, _, _, hh, _⟩ := shape h0 h1
  unfold density
  split
  · exact hh
  · rename_i h
    exact div_pos (mul_pos hh (by linarith)) (by linarith)

theorem area_strict {rb : ℝ} (h0 : 0 < rb) (h1 : rb ≤ 1) {x y : ℝ} (hxy : x < y) (hx : x < finish rb) :
    area rb x < area rb y := by
  have hm : x < min y (finish rb) := lt_min hxy hx
  have hmid : (x + min y (finish rb)) / 2 < min y (finish rb) := by linarith
  have a := (area_bounds h0 h1 (x := x) (y := (x + min y (finish rb)) / 2) (by linarith)).1
  have b := area_mono h0 h1 (x := (x + min y (finish rb)) / 2) (y := y) (by linarith [min_le_left y (finish rb)])
  have c := density_pos h0 h1 (x := (x + min y (finish rb)) / 2) (by linarith [min_le_right y (finish rb)])
  have d := mul_pos c (show 0 < (x + min y (finish rb)) / 2 - x by linarith)
  linarith

/-- A candidate in the support of the biased draw has a positive probability. -/
theorem prob_pos {K : List ℕ} (hK : K.Nodup) {rb : ℝ} (h0 : 0 < rb) (h1 : rb ≤ 1) {j : ℕ} (hj : j < K.length)
    (hj' : rb ≤ 1 / 2 → (j : ℝ) < 2 * rb * K.length) : 0 < prob K rb K[j] := by
  have hn : (0 : ℝ) < K.length := by exact_mod_cast (by omega : 0 < K.length)
  rw [prob_area hK h0 h1 hj, sub_pos]
  refine area_strict h0 h1 (div_lt_div_of_pos_right (by push_cast; linarith) hn) (lt_min ?_ ?_)
  · rw [div_lt_one hn]; exact_mod_cast hj
  · rw [div_lt_iff₀ hn]
    by_cases hh : rb ≤ 1 / 2
    · exact hj' hh
    · have : (j : ℝ) < K.length := by exact_mod_cast hj
      nlinarith

/-- The draws choosing position `j`. -/
def hits (K : List ℕ) (rb : ℝ) (k : ℕ) : Set (ℝ × ℝ) :=
  {p | p.1 ∈ Ico (0 : ℝ) 1 ∧ p.2 ∈ Ico (0 : ℝ) 1 ∧ call K rb ⟨p.1, p.2⟩ = some k}

theorem measurable_hits {K : List ℕ} (hK : K.Nodup) {rb : ℝ} (h0 : 0 < rb) (h1 : rb ≤ 1) {j : ℕ}
    (hj : j < K.length) : MeasurableSet (hits K rb K[j]) := by
  have hn : 0 < K.length := by omega
  obtain ⟨a1, a2⟩ := frac_mem (n := K.length) (j := j) hj.le hn
  obtain ⟨b1, b2⟩ := frac_mem (n := K.length) (j := j + 1) hj hn
  unfold hits
  rw [chosen_eq hK h0 h1 hj]
  exact (below_area h0 h1 b1 b2).1.diff (below_area h0 h1 a1 a2).1

theorem square_hits (K : List ℕ) (rb : ℝ) (k : ℕ) : square.real (hits K rb k) = prob K rb k := by
  have hsub : hits K rb k ⊆ Ico (0 : ℝ) 1 ×ˢ Ico (0 : ℝ) 1 := fun p hp => ⟨hp.1, hp.2.1⟩
  unfold prob Measure.real square
  rw [Measure.restrict_apply' measurable_rect, inter_eq_left.2 hsub]
  rfl

theorem prob_le_one' (K : List ℕ) (rb : ℝ) (k : ℕ) : prob K rb k ≤ 1 := by
  rw [← square_hits]
  exact measureReal_le_one

/-- The probability that a candidate is not among the first `t` draws. -/
theorem missed {K : List ℕ} (hK : K.Nodup) {rb : ℝ} (h0 : 0 < rb) (h1 : rb ≤ 1) {j : ℕ} (hj : j < K.length) (t : ℕ) :
    endless.real {ω | ∀ i < t, ω i ∉ hits K rb K[j]} = (1 - prob K rb K[j]) ^ t := by
  have e : {ω : ℕ → ℝ × ℝ | ∀ i < t, ω i ∉ hits K rb K[j]} =
      Set.pi (Finset.range t : Set ℕ) fun _ => (hits K rb K[j])ᶜ := by
    ext ω
    simp [Set.mem_pi]
  have hm := measurable_hits hK h0 h1 hj
  unfold Measure.real endless
  rw [e, Measure.infinitePi_pi _ fun _ _ => hm.compl]
  rw [Finset.prod_const, Finset.card_range, ENNReal.toReal_pow, ← Measure.real, probReal_compl_eq_one_sub hm,
    square_hits]

/-- All results of `random.random()` are in their range, almost surely. -/
theorem all_valid : ∀ᵐ ω ∂endless, ∀ i, (ω i) ∈ Ico (0 : ℝ) 1 ×ˢ Ico (0 : ℝ) 1 := by
  rw [ae_all_iff]
  intro i
  have h : ∀ᵐ p ∂square, p ∈ Ico (0 : ℝ) 1 ×ˢ Ico (0 : ℝ) 1 := ae_restrict_mem measurable_rect
  have hmap : endless.map (fun ω => ω i) = square := Measure.infinitePi_map_eval _ i
  rw [← hmap] at h
  exact ae_of_ae_map (measurable_pi_apply i).aemeasurable h

/-- A request that has not returned has missed one of the first `N` candidates, or a draw was out of range. -/
theorem unfinished_subset {K : List ℕ} (hK : K.Nodup) {rb : ℝ} (h0 : 0 < rb) (h1 : rb ≤ 1) {N : ℕ}
    (hN : N ≤ K.length) (t : ℕ) :
    {ω | ¬ ∃ ks, loop K rb N [] (firstDraws ω t) = .value ks} ⊆
      (⋃ j ∈ Finset.range N, {ω | ∀ i < t, ω i ∉ hits K rb (K[j]?.getD 0)}) ∪
        {ω | ¬ ∀ i, (ω i) ∈ Ico (0 : ℝ) 1 ×ˢ Ico (0 : ℝ) 1} := by
  intro ω hω
  by_contra hcon
  simp only [mem_union, mem_iUnion, mem_ofPred_eq, not_or, not_exists, not_not, Finset.mem_range] at hcon
  obtain ⟨h2, h3⟩ := hcon
  refine hω (loop_covered (K.take N) ((List.take_sublist _ _).nodup hK) (by simp [hN]) _ ?_ [] ?_)
  · intro d hd
    obtain ⟨i, _, rfl⟩ := exists_of_mem_firstDraws hd
    rcases Nat.eq_zero_or_pos t with rfl | ht
    · simp [firstDraws] at hd
    · by_cases hKn : K = []
      · subst hKn
        exfalso
        obtain rfl : N = 0 := by simpa using hN
        refine hω ⟨[], ?_⟩
        unfold loop
        simp
      · obtain ⟨k, _, hk⟩ := C12_returns_candidate K hKn rb h0.le h1 ⟨(ω i).1, (ω i).2⟩
          ⟨(h3 i).1.1, (h3 i).1.2, (h3 i).2.1, (h3 i).2.2⟩
        exact ⟨k, hk⟩
  · intro k hk
    right
    obtain ⟨j, hj, rfl⟩ := List.mem_iff_getElem.1 hk
    have hjN : j < N := by simp at hj; omega
    have hjK : j < K.length := by omega
    have h4 := h2 j hjN
    push Not at h4
    obtain ⟨i, hit, hi⟩ := h4
    rw [List.getElem?_eq_getElem hjK] at hi
    refine ⟨_, mem_firstDraws hit, ?_⟩
    rw [List.getElem_take]
    exact hi.2.2

/-! ## C13 -/

/-- C13, what does hold, quantitatively: the probability that a request for `N` different members has not returned a
value after `t` calls of the sampler is at most `N·(1-p)^t`, where `p > 0` is the probability of drawing the `N`-th best
candidate.

The hypotheses are those of `C13_can_finish_partial`: the full property asks only for `N` allowed members;
`C13_small_bias_never_returns` shows that this is not enough. -/
theorem C13_tail_partial (KS ex pos : List ℕ) (hKS : KS.Nodup) (N : ℕ) (rb : ℝ) (h0 : 0 < rb) (h1 : rb ≤ 1)
    (hN1 : 1 ≤ N) (hN : N ≤ (candidates KS ex).length)
    (hN' : rb ≤ 1 / 2 → (N : ℝ) < 2 * rb * (candidates KS ex).length + 1) :
    0 < prob (candidates KS ex) rb ((candidates KS ex)[N - 1]'(by omega)) ∧
    ∀ t : ℕ, endless.real {ω | ¬ ∃ ks, sample KS N ex (.num rb) pos (firstDraws ω t) = .value ks} ≤
      N * (1 - prob (candidates KS ex) rb ((candidates KS ex)[N - 1]'(by omega))) ^ t := by
  have hK : (candidates KS ex).Nodup := hKS.filter _
  have hcast : ((N - 1 : ℕ) : ℝ) = N - 1 := by rw [Nat.cast_sub hN1]; simp
  refine ⟨prob_pos hK h0 h1 _ fun h => by rw [hcast]; linarith [hN' h], fun t => ?_⟩
  simp only [sample, if_neg (not_lt.2 h1)]
  refine (measureReal_mono (unfinished_subset hK h0 h1 hN t)).trans ?_
  refine (measureReal_union_le _ _).trans ?_
  have hz : endless.real {ω : ℕ → ℝ × ℝ | ¬ ∀ i, (ω i) ∈ Ico (0 : ℝ) 1 ×ˢ Ico (0 : ℝ) 1} = 0 := by
    have := all_valid
    rw [ae_iff] at this
    rw [Measure.real, this]
    rfl
  rw [hz, add_zero]
  refine (measureReal_biUnion_finset_le _ _).trans ?_
  have hb : ∀ j ∈ Finset.range N,
      endless.real {ω | ∀ i < t, ω i ∉ hits (candidates KS ex) rb ((candidates KS ex)[j]?.getD 0)} ≤
        (1 - prob (candidates KS ex) rb ((candidates KS ex)[N - 1]'(by omega))) ^ t := by
    intro j hj
    have hjN := Finset.mem_range.1 hj
    have hjK : j < (candidates KS ex).length := by omega
    rw [List.getElem?_eq_getElem hjK, Option.getD_some, missed hK h0 h1 hjK]
    refine pow_le_pow_left₀ (by linarith [prob_le_one' (candidates KS ex) rb (candidates KS ex)[j]]) ?_ t
    have := C77_better_more_likely _ hK rb h0 h1 j (N - 1) (by omega) (by omega)
    linarith
  refine (Finset.sum_le_sum hb).trans ?_
  simp

/-- C13, what does hold: a request for `N` different members returns with probability one.

The full property asks only for `N` allowed members; `C13_small_bias_never_returns` shows that this is not enough. -/
theorem C13_almost_surely_partial (KS ex pos : List ℕ) (hKS : KS.Nodup) (N : ℕ) (rb : ℝ) (h0 : 0 < rb) (h1 : rb ≤ 1)
    (hN : N ≤ (candidates KS ex).length)
    (hN' : rb ≤ 1 / 2 → (N : ℝ) < 2 * rb * (candidates KS ex).length + 1) :
    ∀ᵐ ω ∂endless, ∃ t ks, sample KS N ex (.num rb) pos (firstDraws ω t) = .value ks := by
  rcases Nat.eq_zero_or_pos N with rfl | hN1
  · refine Eventually.of_forall fun ω => ⟨0, [], ?_⟩
    simp only [sample, if_neg (not_lt.2 h1)]
    unfold loop
    simp
  obtain ⟨hp, hb⟩ := C13_tail_partial KS ex pos hKS N rb h0 h1 hN1 hN hN'
  rw [ae_iff]
  have hle : ∀ t : ℕ, endless.real {ω | ¬ ∃ t ks, sample KS N ex (.num rb) pos (firstDraws ω t) = .value ks} ≤
      N * (1 - prob (candidates KS ex) rb ((candidates KS ex)[N - 1]'(by omega))) ^ t := fun t =>
    (measureReal_mono fun ω (hω : ¬ ∃ t ks, sample KS N ex (.num rb) pos (firstDraws ω t) = .value ks) hcon =>
      hω ⟨t, hcon⟩).trans (hb t)
  have hlim : Tendsto (fun t : ℕ => (N : ℝ) *
      (1 - prob (candidates KS ex) rb ((candidates KS ex)[N - 1]'(by omega))) ^ t) atTop (nhds (N * 0)) := by
    refine Tendsto.const_mul _ (tendsto_pow_atTop_nhds_zero_of_lt_one ?_ (by linarith))
    linarith [prob_le_one' (candidates KS ex) rb ((candidates KS ex)[N - 1]'(by omega))]
  have h := ge_of_tendsto' hlim hle
  rw [mul_zero] at h
  have h' := le_antisymm h measureReal_nonneg
  rwa [measureReal_eq_zero_iff] at h'

/-! ## Examples -/

/-- Two of three with bias one half. -/
example := C13_tail_partial [7, 4, 9] [] [] (by decide) 2 (1 / 2) (by norm_num) (by norm_num) (by norm_num)
  (by decide) (by rw [show (candidates [7, 4, 9] []).length = 3 by decide]; norm_num)

example := C13_almost_surely_partial [7, 4, 9] [] [] (by decide) 2 (1 / 2) (by norm_num) (by norm_num) (by decide)
  (by rw [show (candidates [7, 4, 9] []).length = 3 by decide]; norm_num)

end Sampler
end Ade
