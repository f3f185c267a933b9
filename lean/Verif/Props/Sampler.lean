import Verif.Lemmas.Sampler
import Verif.Lemmas.Population

/-!
# Properties C11, C12, C13, C25: random selection of indices

Theorems quantify over all random draws.  `KS` is any arrangement of the population's indices (any
ranking).
-/

set_option autoImplicit false

namespace Ade
namespace Sampler

/-- Contract of `random.sample`: `N` different positions below `m`. -/
structure ValidPositions (pos : List ℕ) (m N : ℕ) : Prop where
  nodup : pos.Nodup
  lt : ∀ p ∈ pos, p < m
  length : pos.length = N

/-- A bias within [0,1]. -/
def Bias.InRange : Bias → Prop
  | .falsy => True
  | .one => True
  | .num rb => 0 < rb ∧ rb ≤ 1

theorem mem_candidates {KS ex : List ℕ} {k : ℕ} : k ∈ candidates KS ex ↔ k ∈ KS ∧ k ∉ ex := by
  simp [candidates]

theorem filterMap_positions {K pos : List ℕ} {N : ℕ} (hK : K.Nodup)
    (hp : ValidPositions pos K.length N) :
    (pos.filterMap fun p => K[p]?).Nodup ∧ (∀ k ∈ pos.filterMap fun p => K[p]?, k ∈ K) ∧
      (pos.filterMap fun p => K[p]?).length = N := by
  refine ⟨?_, ?_, ?_⟩
  · refine List.Nodup.filterMap ?_ hp.nodup
    intro a a' b hb hb'
    simp only [Option.mem_def, List.getElem?_eq_some_iff] at hb hb'
    obtain ⟨h1, h2⟩ := hb
    obtain ⟨h3, h4⟩ := hb'
    exact (hK.getElem_inj_iff).1 (h2.trans h4.symm)
  · intro k hk
    obtain ⟨p, -, hp⟩ := List.mem_filterMap.1 hk
    exact List.mem_of_getElem? hp
  · rw [← hp.length]
    have : ∀ l : List ℕ, (∀ p ∈ l, p < K.length) → (l.filterMap fun p => K[p]?).length = l.length := by
      intro l
      induction l with
      | nil => simp
      | cons a l ih =>
        intro h
        have ha : a < K.length := h a (by simp)
        have := ih (fun p hp => h p (by simp [hp]))
        simp [ha, this]
    exact this pos hp.lt

/-! ## C11 -/

/-- C11: whatever is returned consists of `N` different valid indices, none excluded. -/
theorem C11_distinct_allowed (n : ℕ) (KS : List ℕ) (hKS : KS.Perm (List.range n)) (N : ℕ) (hN : 1 ≤ N)
    (ex : List ℕ) (b : Bias) (pos : List ℕ)
    (hpos : b = .one → ValidPositions pos (candidates KS ex).length N) (ds : List Draw) (ks : List ℕ)
    (h : sample KS N ex b pos ds = .value ks) :
    ks.Nodup ∧ ks.length = N ∧ ∀ k ∈ ks, k < n ∧ k ∉ ex := by
  have hnd : (candidates KS ex).Nodup :=
    ((hKS.nodup_iff).2 List.nodup_range).filter _
  have key : ks.Nodup ∧ (∀ k ∈ ks, k ∈ candidates KS ex) ∧ ks.length = N := by
    unfold sample at h
    cases b with
    | falsy =>
      simp only at h
      split at h
      · cases h
      · rename_i hN1
        split at h
        · cases h
        · rename_i k K hk
          injection h with h; subst h
          refine ⟨by simp, ?_, by simp; omega⟩
          intro x hx; simp at hx; subst hx; rw [hk]; simp
    | one =>
      simp only [randomSample] at h
      split at h
      · cases h
      · injection h with h; subst h
        exact filterMap_positions hnd (hpos rfl)
    | num rb =>
      simp only at h
      split at h
      · cases h
      · exact loop_value ds [] ks (by simp) (by simp) (by simp) h
  refine ⟨key.1, key.2.2, fun k hk => ?_⟩
  have := mem_candidates.1 (key.2.1 k hk)
  exact ⟨by simpa using hKS.mem_iff.1 this.1, this.2⟩

/-- C11: with the default (uniform) setting the request succeeds exactly when there are `N` allowed
indices. -/
theorem C11_uniform_succeeds (KS : List ℕ) (N : ℕ) (ex pos : List ℕ) (ds : List Draw) :
    (N ≤ (candidates KS ex).length → ∃ ks, sample KS N ex .one pos ds = .value ks) ∧
    ((candidates KS ex).length < N → sample KS N ex .one pos ds = .valueError) := by
  constructor
  · intro h; exact ⟨_, by simp only [sample, randomSample]; rw [if_neg (by omega)]⟩
  · intro h; simp only [sample, randomSample]; rw [if_pos h]

/-- C11: with bias 0 the single index returned is that of a best allowed member. -/
theorem C11_bias_zero_best (scores : List PyFloat) (KS : List ℕ) (hKS : IsRanking scores KS)
    (ex pos : List ℕ) (ds : List Draw) (hex : ∃ k, k < scores.length ∧ k ∉ ex) :
    ∃ k, sample KS 1 ex .falsy pos ds = .value [k] ∧ k < scores.length ∧ k ∉ ex ∧
      ∀ k', k' < scores.length → k' ∉ ex →
        RanksBefore (scores.getD k .nan) (scores.getD k' .nan) := by
  obtain ⟨k₀, hk₀, hk₀e⟩ := hex
  have h0 : k₀ ∈ candidates KS ex :=
    mem_candidates.2 ⟨hKS.perm.mem_iff.2 (by simpa using hk₀), hk₀e⟩
  cases hc : candidates KS ex with
  | nil => rw [hc] at h0; cases h0
  | cons k K =>
    have hk := mem_candidates.1 (show k ∈ candidates KS ex by rw [hc]; simp)
    refine ⟨k, by simp [sample, hc], by simpa using hKS.perm.mem_iff.1 hk.1, hk.2, ?_⟩
    intro k' hk' hk'e
    have hmem : k' ∈ candidates KS ex :=
      mem_candidates.2 ⟨hKS.perm.mem_iff.2 (by simpa using hk'), hk'e⟩
    have ho : (candidates KS ex).Pairwise fun a b =>
        RanksBefore (scores.getD a .nan) (scores.getD b .nan) :=
      hKS.order.sublist List.filter_sublist
    rw [hc] at ho hmem
    rcases List.mem_cons.1 hmem with rfl | hmem
    · exact RanksBefore.refl _
    · exact (List.pairwise_cons.1 ho).1 k' hmem

/-- Non-vacuity of `C11_distinct_allowed`: three of six members, two excluded. -/
example : ValidPositions [3, 0, 2] (candidates [2, 0, 5, 1, 4, 3] [0, 4]).length 3 ∧
    sample [2, 0, 5, 1, 4, 3] 3 [0, 4] .one [3, 0, 2] [] = .value [3, 2, 1] := by
  refine ⟨⟨by decide, by decide, by decide⟩, by decide⟩

/-- Non-vacuity of `C11_bias_zero_best`: the best member is excluded. -/
example : sample [2, 0, 1] 1 [2] .falsy [] [] = .value [0] := by
  simp [sample, candidates]

/-! ## C12 -/

/-- C12: the biased sampler returns one of the candidates. -/
theorem C12_returns_candidate (K : List ℕ) (hK : K ≠ []) (rb : ℝ) (h0 : 0 ≤ rb) (h1 : rb ≤ 1) (d : Draw)
    (hd : d.Valid) : ∃ k ∈ K, call K rb d = some k := by
  have hn : 0 < K.length := List.length_pos_iff.2 hK
  have hn' : (0 : ℝ) < K.length := by exact_mod_cast hn
  have hm := variate_mem h0 h1 hd
  have hlt : ⌊variate rb d * K.length⌋₊ < K.length :=
    (Nat.floor_lt (mul_nonneg hm.1 hn'.le)).2 (by nlinarith [hm.2])
  exact ⟨K[⌊variate rb d * K.length⌋₊], List.getElem_mem _, by rw [call_of_mem h0 h1 K hd]; simp [hlt]⟩

/-- C12: with a bias of at most one half, only the first `⌈2·bias·n⌉` candidates are returned. -/
theorem C12_rank_bound (K : List ℕ) (hK : K ≠ []) (rb : ℝ) (h0 : 0 < rb) (h1 : rb ≤ 1 / 2) (d : Draw)
    (hd : d.Valid) : ∃ k ∈ K.take ⌈2 * rb * K.length⌉₊, call K rb d = some k := by
  obtain ⟨k, hc, hk⟩ := call_eq h0 (by linarith) hK hd
  refine ⟨k, ?_, hc⟩
  unfold support at hk
  rw [if_pos h1] at hk
  exact (List.take_subset_take_left _ (min_le_right _ _)) hk

/-- C12: the bound is sharp, each of these candidates is returned for some draw. -/
theorem C12_rank_bound_sharp (K : List ℕ) (rb : ℝ) (h0 : 0 < rb) (h1 : rb ≤ 1 / 2) (k : ℕ)
    (hk : k ∈ K.take ⌈2 * rb * K.length⌉₊) : ∃ d : Draw, d.Valid ∧ call K rb d = some k := by
  apply call_hits h0
  unfold support
  rw [if_pos h1]
  have : K.take (min K.length ⌈2 * rb * (K.length : ℝ)⌉₊) = K.take ⌈2 * rb * K.length⌉₊ := by
    rw [← List.take_take, List.take_of_length_le]
    simp
  rwa [this]

/-- C12: bias 0 returns the first candidate. -/
theorem C12_bias_zero (k : ℕ) (K : List ℕ) (d : Draw) : call (k :: K) 0 d = some k := by
  have h2 : ¬ (1 / 2 : ℝ) < 0 := by norm_num
  have hv : variate 0 d = 0 := by simp only [variate, if_neg h2, triangular0, mul_zero, if_true]
  simp [call, item, truncate, hv]

/-- C12: for the same draws a lower bias (up to one half) never returns a later candidate. -/
theorem C12_lower_bias_earlier (K : List ℕ) (hK : K.Nodup) (rb rb' : ℝ) (h0 : 0 ≤ rb) (h : rb ≤ rb') (h1 : rb' ≤ 1 / 2)
    (d : Draw) (hd : d.Valid) (i j : ℕ) (hi : i < K.length) (hj : j < K.length) (hi' : call K rb d = some K[i])
    (hj' : call K rb' d = some K[j]) : i ≤ j := by
  have pos : ∀ (r : ℝ) (m : ℕ) (hm : m < K.length), K[⌊r⌋₊]? = some K[m] → ⌊r⌋₊ = m := by
    intro r m hm hr
    obtain ⟨hlt, hr⟩ := List.getElem?_eq_some_iff.1 hr
    exact (List.Nodup.getElem_inj_iff hK).1 hr
  rw [call_of_mem h0 (by linarith) K hd] at hi'
  rw [call_of_mem (h0.trans h) (by linarith) K hd] at hj'
  rw [← pos _ _ hi hi', ← pos _ _ hj hj']
  apply Nat.floor_le_floor
  refine mul_le_mul_of_nonneg_right ?_ (Nat.cast_nonneg _)
  unfold variate
  rw [if_neg (by linarith), if_neg (by linarith), triangular0_eq hd.u0, triangular0_eq hd.u0]
  have := (sqrt_mem hd.u0 hd.u1).2
  nlinarith

/-- Non-vacuity: a valid draw. -/
example : (⟨1 / 3, 3 / 4⟩ : Draw).Valid := by constructor <;> norm_num

/-! ## C13 -/

/-- C13, what does hold: while a request for `N` different members is pending, it can always be
completed by some further draws (so, the draws being independent, it ends with probability one),
provided `N` is at most the number of candidates in the support of the biased draw: all of them for a
bias above one half, the first `⌈2·bias·n⌉` otherwise.

The full property asks only for `N` allowed members; `C13_small_bias_never_returns` shows that this is
not enough. -/
theorem C13_can_finish_partial (KS ex pos : List ℕ) (hKS : KS.Nodup) (N : ℕ) (rb : ℝ) (h0 : 0 < rb)
    (h1 : rb ≤ 1) (hN : N ≤ (candidates KS ex).length)
    (hN' : rb ≤ 1 / 2 → (N : ℝ) < 2 * rb * (candidates KS ex).length + 1) (ds₀ : List Draw)
    (hp : sample KS N ex (.num rb) pos ds₀ = .pending) :
    ∃ ds : List Draw, (∀ d ∈ ds, d.Valid) ∧
      ∃ ks, sample KS N ex (.num rb) pos (ds₀ ++ ds) = .value ks := by
  simp only [sample, if_neg (not_lt.2 h1)] at hp ⊢
  refine loop_continues h0 (hKS.filter _) ?_ ds₀ [] hp
  unfold support
  split
  · rename_i hh
    refine le_min hN ?_
    have h3 := hN' hh
    by_contra hcon
    push Not at hcon
    have h4 : ((⌈2 * rb * ((candidates KS ex).length : ℝ)⌉₊ + 1 : ℕ) : ℝ) ≤ N := by exact_mod_cast hcon
    have h5 := Nat.le_ceil (2 * rb * ((candidates KS ex).length : ℝ))
    push_cast at h4
    linarith
  · exact hN

/-- C13, negation: with a small bias, a request for more members than the support holds never
returns, whatever is drawn, although there are enough allowed members. -/
theorem C13_small_bias_never_returns (KS ex pos : List ℕ) (N : ℕ) (rb : ℝ) (h0 : 0 < rb)
    (h1 : rb ≤ 1 / 2) (hK : candidates KS ex ≠ [])
    (hN : 2 * rb * (candidates KS ex).length ≤ N - 1) (hN1 : 1 ≤ N) (ds : List Draw)
    (hds : ∀ d ∈ ds, d.Valid) : sample KS N ex (.num rb) pos ds = .pending := by
  simp only [sample, if_neg (show ¬ (1 : ℝ) < rb by linarith)]
  refine loop_support h0 (by linarith) hK ds hds [] (by simp) (by simp) ?_
  unfold support
  rw [if_pos h1]
  refine lt_of_le_of_lt (min_le_right _ _) ?_
  have : ⌈2 * rb * ((candidates KS ex).length : ℝ)⌉₊ ≤ N - 1 := by
    apply Nat.ceil_le.2
    rw [Nat.cast_sub hN1]
    simpa using hN
  omega

/-- C13, negation on a witness: twenty members, none excluded, two wanted, bias 1/50. -/
theorem C13_witness (pos : List ℕ) (ds : List Draw) (hds : ∀ d ∈ ds, d.Valid) :
    2 ≤ (candidates (List.range 20) []).length ∧
      sample (List.range 20) 2 [] (.num (1 / 50)) pos ds = .pending := by
  have hl : (candidates (List.range 20) []).length = 20 := by decide
  refine ⟨by rw [hl]; norm_num, ?_⟩
  refine C13_small_bias_never_returns _ _ _ _ _ (by norm_num) (by norm_num) ?_ ?_ (by norm_num) ds hds
  · intro h; rw [h] at hl; cases hl
  · rw [hl]; norm_num

/-- C13: the requests made by a run (one base member) return with the first draw. -/
theorem C13_single_returns (KS ex pos : List ℕ) (rb : ℝ) (h0 : 0 < rb) (h1 : rb ≤ 1)
    (hK : candidates KS ex ≠ []) (d : Draw) (hd : d.Valid) (ds : List Draw) :
    ∃ k, sample KS 1 ex (.num rb) pos (d :: ds) = .value [k] := by
  obtain ⟨k, -, hk⟩ := C12_returns_candidate _ hK rb h0.le h1 d hd
  refine ⟨k, ?_⟩
  simp only [sample, if_neg (not_lt.2 h1)]
  unfold loop
  simp only [List.length_nil, Nat.zero_lt_one, if_true, hk]
  unfold loop
  simp

/-- Non-vacuity of `C13_can_finish_partial`: a pending request, two of five with bias 1/4. -/
example : sample [3, 0, 4, 1, 2] 2 [] (.num (1 / 4)) [] [] = .pending ∧
    (2 : ℝ) < 2 * (1 / 4) * (candidates [3, 0, 4, 1, 2] []).length + 1 := by
  constructor
  · have h : ¬ (1 : ℝ) < 1 / 4 := by norm_num
    simp only [sample, if_neg h]
    unfold loop; simp
  · have hl : (candidates [3, 0, 4, 1, 2] []).length = 5 := by decide
    rw [hl]; norm_num

/-! ## C25 -/

/-- C25: a lock request is accepted exactly when its indices are different and valid. -/
theorem C25_lock_accepts_iff (n : ℕ) (ks : List ℕ) :
    lock n ks = .acquires ks ↔ ks.Nodup ∧ ∀ k ∈ ks, k < n := by
  have key : ∀ rest : List ℕ, lockLoop n ks rest = .acquires ks ↔
      ∀ k ∈ rest, ks.count k ≤ 1 ∧ k < n := by
    intro rest
    induction rest with
    | nil => simp [lockLoop]
    | cons k rest ih =>
      unfold lockLoop
      split
      · rename_i h; simp; intro h'; omega
      · split
        · rename_i h; simp; intro h' h''; omega
        · rename_i h h'
          rw [ih]; simp; intro _; omega
  unfold lock
  rw [key]
  constructor
  · intro h
    refine ⟨List.nodup_iff_count_le_one.2 fun k => ?_, fun k hk => (h k hk).2⟩
    by_cases hk : k ∈ ks
    · exact (h k hk).1
    · rw [List.count_eq_zero_of_not_mem hk]; omega
  · intro h k hk
    exact ⟨List.nodup_iff_count_le_one.1 h.1 k, h.2 k hk⟩

/-- C25: the four indices of a challenge are different valid indices, and the lock request is
accepted. -/
theorem C25_four_distinct (n : ℕ) (KS : List ℕ) (hKS : KS.Perm (List.range n)) (kt : ℕ) (hkt : kt < n)
    (b : Bias) (pos pos' : List ℕ) (ds : List Draw) (kb : ℕ)
    (hpos : ValidPositions pos (candidates KS [kt]).length 1)
    (hpos' : ValidPositions pos' (candidates KS [kt, kb]).length 2) (ks : List ℕ)
    (hb : chooseBase KS b kt pos ds = .value [kb]) (ho : chooseOthers KS kt kb pos' = .value ks) :
    ∃ k0 k1, ks = [k0, k1] ∧ [kt, kb, k0, k1].Nodup ∧ (∀ k ∈ [kt, kb, k0, k1], k < n) ∧
      lock n [kt, kb, k0, k1] = .acquires [kt, kb, k0, k1] := by
  have h1 : kb < n ∧ kb ≠ kt := by
    have gen : ∀ b', sample KS 1 [kt] b' pos ds = .value [kb] → kb < n ∧ kb ≠ kt := by
      intro b' h
      have := (C11_distinct_allowed n KS hKS 1 le_rfl [kt] b' pos (fun _ => hpos) ds [kb] h).2.2 kb (by simp)
      simpa using this
    unfold chooseBase at hb
    split at hb
    · split at hb
      · exact gen _ hb
      · rename_i hne
        split at hb
        · cases hb
        · rename_i k K
          injection hb with hb; injection hb with hb; subst hb
          exact ⟨by simpa using hKS.mem_iff.1 (by simp : k ∈ k :: K), by simpa using hne⟩
    · exact gen _ hb
  obtain ⟨hnd, hlen, hall⟩ := C11_distinct_allowed n KS hKS 2 (by norm_num) [kt, kb] .one pos' (fun _ => hpos') []
    ks ho
  match ks, hlen with
  | [k0, k1], _ =>
    have a0 := hall k0 (by simp)
    have a1 := hall k1 (by simp)
    simp only [List.nodup_cons, List.mem_cons, List.not_mem_nil, or_false,
      not_or] at hnd a0 a1
    have hfour : [kt, kb, k0, k1].Nodup := by
      simp only [List.nodup_cons, List.mem_cons, List.not_mem_nil, or_false, not_or,
        not_false_eq_true, List.nodup_nil, and_true]
      exact ⟨⟨Ne.symm h1.2, Ne.symm a0.2.1, Ne.symm a1.2.1⟩, ⟨Ne.symm a0.2.2, Ne.symm a1.2.2⟩, hnd.1⟩
    have hlt : ∀ k ∈ [kt, kb, k0, k1], k < n := by
      intro k hk
      simp only [List.mem_cons, List.not_mem_nil, or_false] at hk
      rcases hk with rfl | rfl | rfl | rfl
      exacts [hkt, h1.1, a0.1, a1.1]
    exact ⟨k0, k1, rfl, hfour, hlt, (C25_lock_accepts_iff n _).2 ⟨hfour, hlt⟩⟩

/-- C25: with at least four members, the choices are always made (no exception, no waiting beyond the
first draw). -/
theorem C25_choices_made (n : ℕ) (hn : 4 ≤ n) (KS : List ℕ) (hKS : KS.Perm (List.range n)) (kt : ℕ)
    (b : Bias) (hb : b.InRange) (pos pos' : List ℕ) (d : Draw) (hd : d.Valid) (ds : List Draw)
    (hpos : ValidPositions pos (candidates KS [kt]).length 1) :
    (∃ kb, chooseBase KS b kt pos (d :: ds) = .value [kb]) ∧
      ∀ kb, ∃ ks, chooseOthers KS kt kb pos' = .value ks := by
  have hcard : ∀ ex : List ℕ, n ≤ (candidates KS ex).length + ex.length := by
    intro ex
    have hsub : List.range n ⊆ candidates KS ex ++ ex := by
      intro k hk
      by_cases h : k ∈ ex
      · simp [h]
      · exact List.mem_append_left _ (mem_candidates.2 ⟨hKS.mem_iff.2 hk, h⟩)
    have := (List.subperm_of_subset List.nodup_range hsub).length_le
    simpa using this
  have h1 := hcard [kt]
  have hne : candidates KS [kt] ≠ [] := by intro h; rw [h] at h1; simp at h1; omega
  constructor
  · cases b with
    | falsy =>
      unfold chooseBase
      simp only
      split
      · cases hc : candidates KS [kt] with
        | nil => exact absurd hc hne
        | cons k K => exact ⟨k, by simp [sample, hc]⟩
      · cases KS with
        | nil => exact absurd (by simp [candidates]) hne
        | cons k K => exact ⟨k, rfl⟩
    | one =>
      have hp := filterMap_positions (((hKS.nodup_iff).2 List.nodup_range).filter
        (fun k => !([kt] : List ℕ).contains k)) hpos
      obtain ⟨kb, hkb⟩ := List.length_eq_one_iff.1 hp.2.2
      refine ⟨kb, ?_⟩
      simp only [chooseBase, sample, randomSample]
      rw [if_neg (by simp at h1; omega)]
      exact congrArg _ hkb
    | num rb =>
      obtain ⟨k, hk⟩ := C13_single_returns KS [kt] pos rb hb.1 hb.2 hne d hd ds
      exact ⟨k, hk⟩
  · intro kb
    have h2 := hcard [kt, kb]
    simp at h2
    exact (C11_uniform_succeeds KS 2 [kt, kb] pos' []).1 (by omega)

/-- Non-vacuity of C25: five members, the target is the best one. -/
example : chooseBase [2, 4, 0, 1, 3] .falsy 2 [0] [] = .value [4] ∧
    chooseOthers [2, 4, 0, 1, 3] 2 4 [2, 0] = .value [3, 0] ∧
    ValidPositions [2, 0] (candidates [2, 4, 0, 1, 3] [2, 4]).length 2 := by
  refine ⟨by simp [chooseBase, sample, candidates], by decide, ⟨by decide, by decide, by decide⟩⟩

example := C11_distinct_allowed 6 [2, 0, 5, 1, 4, 3] (by decide) 3 (by decide) [0, 4] .one [3, 0, 2]
  (fun _ => ⟨by decide, by decide, by decide⟩) [] [3, 2, 1] (by decide)

example := C12_returns_candidate [3, 0, 4] (by decide) (3 / 4) (by norm_num) (by norm_num) ⟨1 / 3, 3 / 4⟩
  (by constructor <;> norm_num)

example := C12_rank_bound [3, 0, 4] (by decide) (1 / 4) (by norm_num) (by norm_num) ⟨1 / 3, 3 / 4⟩
  (by constructor <;> norm_num)

example := C12_rank_bound_sharp [3, 0, 4] (1 / 4) (by norm_num) (by norm_num) 0 (by
  have : ⌈2 * (1 / 4 : ℝ) * (([3, 0, 4] : List ℕ).length : ℝ)⌉₊ = 2 := by
    rw [Nat.ceil_eq_iff (by decide)]; norm_num
  rw [this]; decide)

example := C13_can_finish_partial [3, 0, 4, 1, 2] [] [] (by decide) 2 (1 / 4) (by norm_num) (by norm_num) (by decide)
  (fun _ => by
    have hl : (candidates [3, 0, 4, 1, 2] []).length = 5 := by decide
    rw [hl]; norm_num) [] (by
    have h : ¬ (1 : ℝ) < 1 / 4 := by norm_num
    simp only [sample, if_neg h]
    unfold loop; simp)

example := C13_small_bias_never_returns (List.range 20) [] [] 2 (1 / 50) (by norm_num) (by norm_num) (by decide)
  (by
    have hl : (candidates (List.range 20) []).length = 20 := by decide
    rw [hl]; norm_num) (by decide) [⟨1 / 3, 3 / 4⟩, ⟨0, 1 / 2⟩] (by
    intro d hd; simp at hd; rcases hd with rfl | rfl <;> constructor <;> norm_num)

example := C13_witness [] [⟨1 / 3, 3 / 4⟩, ⟨0, 1 / 2⟩] (by
  intro d hd; simp at hd; rcases hd with rfl | rfl <;> constructor <;> norm_num)

example := C25_four_distinct 5 [2, 4, 0, 1, 3] (by decide) 2 (by decide) .falsy [0] [2, 0] [] 4
  ⟨by decide, by decide, by decide⟩ ⟨by decide, by decide, by decide⟩ [3, 0]
  (by simp [chooseBase, sample, candidates]) (by decide)

end Sampler
end Ade
