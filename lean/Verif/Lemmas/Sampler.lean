import Verif.Model.Sampler
import Mathlib.Tactic.Linarith
import Mathlib.Tactic.FieldSimp
import Mathlib.Tactic.Ring
import Mathlib.Data.List.Nodup

/-! Helper lemmas about the random sampler. -/

set_option autoImplicit false

namespace Ade
namespace Sampler

/-- Results `random.random()` can have. -/
structure Draw.Valid (d : Draw) : Prop where
  sel0 : 0 ≤ d.sel
  sel1 : d.sel < 1
  u0 : 0 ≤ d.u
  u1 : d.u < 1

theorem triangular0_eq {h u : ℝ} (hu : 0 ≤ u) : triangular0 h u = h * (1 - Real.sqrt (1 - u)) := by
  unfold triangular0
  split
  · rename_i h0; simp [h0]
  · split
    · ring
    · have : u = 0 := by linarith
      simp [this]

theorem sqrt_mem {u : ℝ} (h0 : 0 ≤ u) (h1 : u < 1) :
    0 < Real.sqrt (1 - u) ∧ Real.sqrt (1 - u) ≤ 1 := by
  constructor
  · exact Real.sqrt_pos.2 (by linarith)
  · rw [show (1 : ℝ) = Real.sqrt 1 by simp]
    exact Real.sqrt_le_sqrt (by simp; linarith)

theorem triangular0_nonneg {h u : ℝ} (hh : 0 ≤ h) (h0 : 0 ≤ u) (h1 : u < 1) : 0 ≤ triangular0 h u := by
  rw [triangular0_eq h0]
  exact mul_nonneg hh (by linarith [(sqrt_mem h0 h1).2])

theorem triangular0_lt {h u : ℝ} (hh : 0 < h) (h0 : 0 ≤ u) (h1 : u < 1) : triangular0 h u < h := by
  rw [triangular0_eq h0]
  nlinarith [(sqrt_mem h0 h1).1]

/-- Every value of `[0, h)` is attained. -/
theorem triangular0_surj {h v : ℝ} (hh : 0 < h) (hv : 0 ≤ v) (hvh : v < h) :
    ∃ u, 0 ≤ u ∧ u < 1 ∧ triangular0 h u = v := by
  have hq : 0 ≤ v / h := div_nonneg hv hh.le
  have hq1 : v / h < 1 := (div_lt_one hh).2 hvh
  refine ⟨1 - (1 - v / h) ^ 2, by nlinarith, by nlinarith, ?_⟩
  rw [triangular0_eq (by nlinarith)]
  rw [show (1 : ℝ) - (1 - (1 - v / h) ^ 2) = (1 - v / h) ^ 2 by ring,
    Real.sqrt_sq (by linarith)]
  field_simp
  ring

theorem trapz_mem {rc : ℝ} (h0 : 0 < rc) (h1 : rc ≤ 1) {d : Draw} (hd : d.Valid) :
    0 ≤ trapz rc d ∧ trapz rc d < 1 := by
  have hnn := hd.u0
  have hlt := hd.u1
  unfold trapz
  simp only
  by_cases hs : d.sel < (if 1 ≤ rc then 0 else (1 - rc) / (1 + rc))
  · rw [if_pos hs]
    by_cases hrc : 1 ≤ rc
    · rw [if_pos hrc] at hs; exact absurd hs (not_lt.2 hd.sel0)
    · have hp : 0 < 1 - rc := by linarith
      have := triangular0_nonneg hp.le hnn hlt
      have := triangular0_lt hp hnn hlt
      constructor <;> linarith
  · rw [if_neg hs]
    constructor
    · simp; positivity
    · nlinarith

theorem trapz_surj {rc v : ℝ} (h0 : 0 < rc) (hv0 : 0 ≤ v) (hv1 : v < 1) :
    ∃ d : Draw, d.Valid ∧ trapz rc d = v := by
  by_cases hv : v < rc
  · -- uniform part
    have hq : v / rc < 1 := (div_lt_one h0).2 hv
    by_cases hrc : 1 ≤ rc
    · refine ⟨⟨0, v / rc⟩, ⟨le_rfl, by norm_num, div_nonneg hv0 h0.le, hq⟩, ?_⟩
      unfold trapz
      simp [hrc]
      field_simp
    · have hd : (1 - rc) / (1 + rc) < 1 := (div_lt_one (by linarith)).2 (by linarith)
      have hd0 : 0 ≤ (1 - rc) / (1 + rc) := div_nonneg (by linarith) (by linarith)
      refine ⟨⟨(1 - rc) / (1 + rc), v / rc⟩, ⟨hd0, hd, div_nonneg hv0 h0.le, hq⟩, ?_⟩
      unfold trapz
      simp [hrc]
      field_simp
  · -- triangular part
    have hrc : ¬ 1 ≤ rc := by linarith
    obtain ⟨u, hu0, hu1, hu⟩ := triangular0_surj (h := 1 - rc) (v := v - rc) (by linarith) (by linarith)
      (by linarith)
    refine ⟨⟨0, u⟩, ⟨le_rfl, by norm_num, hu0, hu1⟩, ?_⟩
    have hpos : 0 < (1 - rc) / (1 + rc) := div_pos (by linarith) (by linarith)
    unfold trapz
    simp only [if_neg hrc, if_pos hpos, hu]
    ring

theorem variate_mem {rb : ℝ} (h0 : 0 ≤ rb) (h1 : rb ≤ 1) {d : Draw} (hd : d.Valid) :
    0 ≤ variate rb d ∧ variate rb d < 1 := by
  unfold variate
  split
  · exact trapz_mem (by linarith) (by linarith) hd
  · rename_i hh
    refine ⟨triangular0_nonneg (by linarith) hd.u0 hd.u1, ?_⟩
    rcases eq_or_lt_of_le h0 with rfl | hpos
    · simp [triangular0]
    · exact lt_of_lt_of_le (triangular0_lt (by linarith) hd.u0 hd.u1) (by linarith)

theorem variate_lt {rb : ℝ} (h0 : 0 < rb) (h1 : rb ≤ 1 / 2) {d : Draw} (hd : d.Valid) :
    variate rb d < 2 * rb := by
  unfold variate
  rw [if_neg (by linarith)]
  exact triangular0_lt (by linarith) hd.u0 hd.u1

theorem variate_surj {rb v : ℝ} (h0 : 0 < rb) (hv0 : 0 ≤ v) (hv1 : v < 1)
    (hv : rb ≤ 1 / 2 → v < 2 * rb) : ∃ d : Draw, d.Valid ∧ variate rb d = v := by
  unfold variate
  by_cases hh : 1 / 2 < rb
  · simp only [if_pos hh]
    exact trapz_surj (by linarith) hv0 hv1
  · simp only [if_neg hh]
    obtain ⟨u, hu0, hu1, hu⟩ := triangular0_surj (h := 2 * rb) (by linarith) hv0 (hv (by linarith))
    exact ⟨⟨0, u⟩, ⟨le_rfl, by norm_num, hu0, hu1⟩, hu⟩

/-- How many of `n` candidates the biased sampler can ever return. -/
noncomputable def support (rb : ℝ) (n : ℕ) : ℕ := if rb ≤ 1 / 2 then min n ⌈2 * rb * n⌉₊ else n

theorem support_le (rb : ℝ) (n : ℕ) : support rb n ≤ n := by
  unfold support; split
  · exact min_le_left _ _
  · exact le_rfl

theorem position_lt {rb : ℝ} (h0 : 0 < rb) (h1 : rb ≤ 1) {n : ℕ} (hn : 0 < n) {d : Draw}
    (hd : d.Valid) : ⌊variate rb d * n⌋₊ < support rb n := by
  have hn' : (0 : ℝ) < n := by exact_mod_cast hn
  have hm := variate_mem h0.le h1 hd
  have hnn : 0 ≤ variate rb d * n := mul_nonneg hm.1 hn'.le
  have hlt : ⌊variate rb d * n⌋₊ < n := (Nat.floor_lt hnn).2 (by nlinarith [hm.2])
  unfold support
  split
  · rename_i hh
    refine lt_min hlt ?_
    rw [Nat.floor_lt hnn]
    have := Nat.le_ceil (2 * rb * (n : ℝ))
    nlinarith [variate_lt h0 hh hd]
  · exact hlt

/-- A variate that is not negative gives a position counted from the start. -/
theorem call_of_nonneg {rb : ℝ} {K : List ℕ} {d : Draw} (h : 0 ≤ variate rb d * K.length) :
    call K rb d = K[⌊variate rb d * K.length⌋₊]? := by
  unfold call item truncate
  rw [if_pos h, if_pos (Int.floor_nonneg.2 h), Int.floor_toNat]

theorem call_of_mem {rb : ℝ} (h0 : 0 ≤ rb) (h1 : rb ≤ 1) (K : List ℕ) {d : Draw} (hd : d.Valid) :
    call K rb d = K[⌊variate rb d * K.length⌋₊]? :=
  call_of_nonneg (mul_nonneg (variate_mem h0 h1 hd).1 (Nat.cast_nonneg _))

theorem item_mem {K : List ℕ} {i : ℤ} {k : ℕ} (h : item K i = some k) : k ∈ K := by
  unfold item at h
  split at h
  · exact List.mem_of_getElem? h
  · split at h
    · exact List.mem_of_getElem? h
    · cases h

theorem call_eq {rb : ℝ} (h0 : 0 < rb) (h1 : rb ≤ 1) {K : List ℕ} (hK : K ≠ []) {d : Draw}
    (hd : d.Valid) : ∃ k, call K rb d = some k ∧ k ∈ K.take (support rb K.length) := by
  have hn : 0 < K.length := List.length_pos_iff.2 hK
  have hp := position_lt h0 h1 hn hd
  have hlt := lt_of_lt_of_le hp (support_le rb K.length)
  refine ⟨K[⌊variate rb d * K.length⌋₊], by rw [call_of_mem h0.le h1 K hd]; simp [hlt], ?_⟩
  exact List.mem_take_iff_getElem.2 ⟨_, by simpa using ⟨hp, hlt⟩, rfl⟩

theorem call_hits {rb : ℝ} (h0 : 0 < rb) {K : List ℕ} {k : ℕ}
    (hk : k ∈ K.take (support rb K.length)) : ∃ d : Draw, d.Valid ∧ call K rb d = some k := by
  obtain ⟨p, hp, rfl⟩ := List.mem_take_iff_getElem.1 hk
  have hps : p < support rb K.length := by simp at hp; exact hp.1
  have hpn : p < K.length := by simp at hp; exact hp.2
  have hn' : (0 : ℝ) < K.length := by exact_mod_cast (by omega : 0 < K.length)
  obtain ⟨d, hd, hv⟩ := variate_surj (v := (p : ℝ) / K.length) h0 (by positivity)
    ((div_lt_one hn').2 (by exact_mod_cast hpn)) (fun hh => by
      have : p < ⌈2 * rb * (K.length : ℝ)⌉₊ := by
        unfold support at hps; rw [if_pos hh] at hps; exact lt_of_lt_of_le hps (min_le_right _ _)
      rw [div_lt_iff₀ hn']
      exact Nat.lt_ceil.1 this)
  refine ⟨d, hd, ?_⟩
  rw [call_of_nonneg (by rw [hv]; positivity), hv, div_mul_cancel₀ _ hn'.ne', Nat.floor_natCast]
  simp [hpn]

/-- What the loop returns. -/
theorem loop_value {rb : ℝ} {K : List ℕ} {N : ℕ} (ds : List Draw) (result ks : List ℕ)
    (hnd : result.Nodup) (hsub : ∀ k ∈ result, k ∈ K) (hlen : result.length ≤ N)
    (h : loop K rb N result ds = .value ks) : ks.Nodup ∧ (∀ k ∈ ks, k ∈ K) ∧ ks.length = N := by
  induction ds generalizing result with
  | nil =>
    unfold loop at h
    split at h
    · cases h
    · injection h with h; subst h; exact ⟨hnd, hsub, by omega⟩
  | cons d ds ih =>
    unfold loop at h
    split at h
    · simp only at h
      cases hc : call K rb d with
      | none => rw [hc] at h; cases h
      | some k =>
        rw [hc] at h
        simp only at h
        split at h
        · exact ih result hnd hsub hlen h
        · rename_i hlt hk
          refine ih (result ++ [k]) ?_ ?_ ?_ h
          · rw [List.nodup_append]; simp [hnd]; exact fun x hx hxk => hk (hxk ▸ hx)
          · intro x hx
            rcases List.mem_append.1 hx with hx | hx
            · exact hsub x hx
            · simp at hx; subst hx
              exact item_mem hc
          · simp; omega
    · injection h with h; subst h; exact ⟨hnd, hsub, by omega⟩

/-- The loop only collects candidates in the support. -/
theorem loop_support {rb : ℝ} (h0 : 0 < rb) (h1 : rb ≤ 1) {K : List ℕ} (hK : K ≠ []) {N : ℕ}
    (ds : List Draw) (hds : ∀ d ∈ ds, d.Valid) (result : List ℕ)
    (hnd : result.Nodup) (hsub : ∀ k ∈ result, k ∈ K.take (support rb K.length))
    (hN : support rb K.length < N) : loop K rb N result ds = .pending := by
  have hshort : result.length < N := by
    have h2 := (List.subperm_of_subset hnd (fun k hk => hsub k hk)).length_le
    have h3 : (K.take (support rb K.length)).length ≤ support rb K.length := by simp
    omega
  induction ds generalizing result with
  | nil => unfold loop; simp [hshort]
  | cons d ds ih =>
    unfold loop
    rw [if_pos hshort]
    obtain ⟨k, hc, hk⟩ := call_eq h0 h1 hK (hds d (by simp))
    simp only [hc]
    have hds' : ∀ d ∈ ds, d.Valid := fun d hd => hds d (by simp [hd])
    split
    · exact ih hds' result hnd hsub hshort
    · rename_i hkr
      have hnd' : (result ++ [k]).Nodup := by
        rw [List.nodup_append]; simp [hnd]; exact fun x hx hxk => hkr (hxk ▸ hx)
      have hsub' : ∀ x ∈ result ++ [k], x ∈ K.take (support rb K.length) := by
        intro x hx
        rcases List.mem_append.1 hx with hx | hx
        · exact hsub x hx
        · simp at hx; subst hx; exact hk
      refine ih hds' _ hnd' hsub' ?_
      have h2 := (List.subperm_of_subset hnd' (fun k hk => hsub' k hk)).length_le
      have h3 : (K.take (support rb K.length)).length ≤ support rb K.length := by simp
      omega

/-- The loop can always be brought to its end. -/
theorem loop_finishes {rb : ℝ} (h0 : 0 < rb) {K : List ℕ} (hKnd : K.Nodup) {N : ℕ}
    (hN : N ≤ support rb K.length) (result : List ℕ) :
    ∃ ds : List Draw, (∀ d ∈ ds, d.Valid) ∧ ∃ ks, loop K rb N result ds = .value ks := by
  induction hm : N - result.length generalizing result with
  | zero =>
    refine ⟨[], by simp, result, ?_⟩
    unfold loop
    rw [if_neg (by omega)]
  | succ m ih =>
    have hlt : result.length < N := by omega
    have hex : ∃ k ∈ K.take (support rb K.length), k ∉ result := by
      by_contra hcon
      push Not at hcon
      have hle := (List.subperm_of_subset ((List.take_sublist _ _).nodup hKnd)
        (fun k hk => hcon k hk)).length_le
      rw [List.length_take, min_eq_left (support_le _ _)] at hle
      omega
    obtain ⟨k, hk, hkr⟩ := hex
    obtain ⟨d, hd, hc⟩ := call_hits h0 hk
    obtain ⟨ds, hds, ks, hks⟩ := ih (result ++ [k]) (by simp; omega)
    refine ⟨d :: ds, by intro x hx; rcases List.mem_cons.1 hx with rfl | hx; exacts [hd, hds x hx], ks, ?_⟩
    unfold loop
    rw [if_pos hlt]
    simp only [hc, if_neg hkr, hks]

/-- A pending loop can be continued from any state to its end. -/
theorem loop_continues {rb : ℝ} (h0 : 0 < rb) {K : List ℕ} (hKnd : K.Nodup) {N : ℕ}
    (hN : N ≤ support rb K.length) (ds₀ : List Draw) (result : List ℕ)
    (hp : loop K rb N result ds₀ = .pending) :
    ∃ ds : List Draw, (∀ d ∈ ds, d.Valid) ∧ ∃ ks, loop K rb N result (ds₀ ++ ds) = .value ks := by
  induction ds₀ generalizing result with
  | nil => simpa using loop_finishes h0 hKnd hN result
  | cons d ds₀ ih =>
    unfold loop at hp
    split at hp
    · rename_i hlt
      simp only at hp
      cases hc : call K rb d with
      | none => rw [hc] at hp; cases hp
      | some k =>
        rw [hc] at hp
        simp only at hp
        split at hp
        · rename_i hk
          obtain ⟨ds, hds, ks, hks⟩ := ih _ hp
          refine ⟨ds, hds, ks, ?_⟩
          rw [List.cons_append]
          unfold loop
          rw [if_pos hlt]
          simp only [hc, if_pos hk, hks]
        · rename_i hk
          obtain ⟨ds, hds, ks, hks⟩ := ih _ hp
          refine ⟨ds, hds, ks, ?_⟩
          rw [List.cons_append]
          unfold loop
          rw [if_pos hlt]
          simp only [hc, if_neg hk, hks]
    · cases hp

end Sampler
end Ade
