import Verif.Props.Sampler
import Mathlib.Tactic.NormNum

/-!
# Property C133: which settings of `randomBase` are accepted

`Population.sample` (ade/population.py:1055-1113) says in its `ValueError` that `randomBase` must be `False`, `True`, or
between 0.0 and 1.0. Numbers above 1.0 are rejected. Negative ones are not: they reach `ProbabilitySampler.__call__`
(ade/population.py:279-286), whose variate is then negative, and Python counts negative positions from the end.
-/

set_option autoImplicit false

namespace Ade
namespace Sampler

/-- The variate for a negative setting. -/
theorem variate_neg {rb : ℝ} (h : rb < 0) (d : Draw) (hd : d.Valid) :
    variate rb d = -triangular0 (-(2 * rb)) d.u := by
  unfold variate
  rw [if_neg (by linarith), triangular0_eq hd.u0, triangular0_eq hd.u0]
  ring

/-- The position for a negative setting is `0`, or counted from the end. -/
theorem call_neg {rb : ℝ} (h : rb < 0) (K : List ℕ) (hK : K ≠ []) (d : Draw) (hd : d.Valid) :
    ∃ j : ℕ, (j : ℝ) ≤ triangular0 (-(2 * rb)) d.u * K.length ∧ triangular0 (-(2 * rb)) d.u * K.length < j + 1 ∧
      call K rb d = if j = 0 then K[0]? else if j ≤ K.length then K[K.length - j]? else none := by
  have hn : (0 : ℝ) < K.length := by exact_mod_cast List.length_pos_iff.2 hK
  have ht := triangular0_nonneg (h := -(2 * rb)) (by linarith) hd.u0 hd.u1
  have hnn : 0 ≤ triangular0 (-(2 * rb)) d.u * K.length := mul_nonneg ht hn.le
  refine ⟨⌊triangular0 (-(2 * rb)) d.u * K.length⌋₊, Nat.floor_le hnn, Nat.lt_floor_add_one _, ?_⟩
  set y := triangular0 (-(2 * rb)) d.u * K.length with hy
  have hv : variate rb d * K.length = -y := by rw [variate_neg h d hd, hy]; ring
  have htr : truncate (-y) = -(⌊y⌋₊ : ℤ) := by
    unfold truncate
    rw [Int.natCast_floor_eq_floor hnn]
    split
    · have : y = 0 := by linarith
      simp [this]
    · exact Int.ceil_neg
  unfold call
  rw [hv, htr]
  unfold item
  rcases Nat.eq_zero_or_pos ⌊y⌋₊ with h0 | h0
  · simp [h0]
  · rw [if_neg (by omega : ¬ (0 : ℤ) ≤ -(⌊y⌋₊ : ℤ)), if_neg (by omega : ¬ ⌊y⌋₊ = 0)]
    by_cases hle : ⌊y⌋₊ ≤ K.length
    · rw [if_pos (by omega), if_pos hle]
      congr 1
      omega
    · rw [if_neg (by omega), if_neg hle]

/-- Any position can come out, counted from the end, up to the setting. -/
theorem call_neg_hits {rb : ℝ} (h : rb < 0) (K : List ℕ) (hK : K ≠ []) (j : ℕ)
    (hj : (j : ℝ) < -(2 * rb) * K.length) :
    ∃ d : Draw, d.Valid ∧ call K rb d = if j = 0 then K[0]? else if j ≤ K.length then K[K.length - j]? else none := by
  have hn : (0 : ℝ) < K.length := by exact_mod_cast List.length_pos_iff.2 hK
  obtain ⟨u, hu0, hu1, hu⟩ := triangular0_surj (h := -(2 * rb)) (v := j / K.length) (by linarith) (by positivity)
    (by rw [div_lt_iff₀ hn]; exact hj)
  have hd : (⟨0, u⟩ : Draw).Valid := ⟨le_rfl, by norm_num, hu0, hu1⟩
  refine ⟨⟨0, u⟩, hd, ?_⟩
  obtain ⟨i, h1, h2, h3⟩ := call_neg h K hK _ hd
  have e : triangular0 (-(2 * rb)) u * K.length = j := by rw [hu]; field_simp
  simp only [e] at h1 h2
  have : i = j := by
    have a : i ≤ j := by exact_mod_cast h1
    have b : j < i + 1 := by exact_mod_cast h2
    omega
  subst this
  exact h3

/-- The result of `sample` for one index and a number up to one. -/
theorem sample_one {KS ex pos : List ℕ} {rb : ℝ} (h1 : rb ≤ 1) (d : Draw) (ds : List Draw) :
    sample KS 1 ex (.num rb) pos (d :: ds) =
      (match call (candidates KS ex) rb d with
        | none => .indexError
        | some k => .value [k]) := by
  simp only [sample, if_neg (not_lt.2 h1)]
  rw [loop]
  simp only [List.length_nil, Nat.zero_lt_one, if_true]
  cases call (candidates KS ex) rb d with
  | none => rfl
  | some k => simp only [List.not_mem_nil, if_false, List.nil_append]; cases ds <;> simp [loop]

/-! ## C133 -/

/-- C133, what does hold: a number above one is rejected, and with one from above zero up to one there is no exception,
for any request and any draws.

The full property asks that negative numbers are rejected too; `C133_negative_accepted` shows that they are not. -/
theorem C133_above_one_rejected_partial (KS ex pos : List ℕ) (N : ℕ) (rb : ℝ) (ds : List Draw) :
    (1 < rb → sample KS N ex (.num rb) pos ds = .valueError) ∧
    (0 < rb → rb ≤ 1 → (∃ k ∈ KS, k ∉ ex) → (∀ d ∈ ds, d.Valid) →
      sample KS N ex (.num rb) pos ds ≠ .valueError ∧ sample KS N ex (.num rb) pos ds ≠ .indexError) := by
  constructor
  · intro h
    simp only [sample, if_pos h]
  · rintro h0 h1 ⟨k, hk, hke⟩ hds
    have hK : candidates KS ex ≠ [] := List.ne_nil_of_mem (mem_candidates.2 ⟨hk, hke⟩)
    have key : ∀ result, loop (candidates KS ex) rb N result ds ≠ .valueError ∧
        loop (candidates KS ex) rb N result ds ≠ .indexError := by
      induction ds with
      | nil => intro result; unfold loop; split <;> simp
      | cons d ds ih =>
        intro result
        have ih := ih fun x hx => hds x (by simp [hx])
        obtain ⟨k', hc, -⟩ := call_eq h0 h1 hK (hds d (by simp))
        unfold loop
        split
        · simp only [hc]
          split
          · exact ih _
          · exact ih _
        · simp
    simp only [sample, if_neg (not_lt.2 h1)]
    exact key []

/-- C133: a negative number down to minus one half is accepted. The index returned is that of the best candidate or that
of one of the last ones, the `j`-th from the end with `j` below twice the number's size times the number of candidates. -/
theorem C133_negative_accepted (KS ex pos : List ℕ) (rb : ℝ) (h0 : rb < 0) (h1 : -(1 / 2) ≤ rb)
    (hK : candidates KS ex ≠ []) (d : Draw) (hd : d.Valid) (ds : List Draw) :
    ∃ k, sample KS 1 ex (.num rb) pos (d :: ds) = .value [k] ∧
      ((candidates KS ex).head? = some k ∨
        ∃ j : ℕ, 1 ≤ j ∧ j ≤ (candidates KS ex).length ∧ (j : ℝ) < -(2 * rb) * (candidates KS ex).length ∧
          (candidates KS ex)[(candidates KS ex).length - j]? = some k) := by
  rw [sample_one (by linarith)]
  set K := candidates KS ex
  have hn : 0 < K.length := List.length_pos_iff.2 hK
  have hn' : (0 : ℝ) < K.length := by exact_mod_cast hn
  obtain ⟨j, j1, j2, hc⟩ := call_neg h0 K hK d hd
  have ht := triangular0_lt (h := -(2 * rb)) (by linarith) hd.u0 hd.u1
  have hjb : (j : ℝ) < -(2 * rb) * K.length := lt_of_le_of_lt j1 (mul_lt_mul_of_pos_right ht hn')
  have hjn : j ≤ K.length := by
    have : (j : ℝ) < K.length := by nlinarith
    exact_mod_cast this.le
  rw [hc]
  by_cases hj0 : j = 0
  · rw [if_pos hj0, List.getElem?_eq_getElem hn]
    refine ⟨K[0], rfl, .inl ?_⟩
    rw [List.head?_eq_getElem?, List.getElem?_eq_getElem hn]
  · have hlt : K.length - j < K.length := by omega
    rw [if_neg hj0, if_pos hjn, List.getElem?_eq_getElem hlt]
    exact ⟨_, rfl, .inr ⟨j, by omega, hjn, hjb, List.getElem?_eq_getElem hlt⟩⟩

/-- C133: with a negative number of enough size some draws return the worst candidate, the one that is last in the
ranking. -/
theorem C133_negative_worst (KS ex pos : List ℕ) (rb : ℝ) (h0 : rb < 0)
    (h1 : 1 < -(2 * rb) * (candidates KS ex).length) (k : ℕ) (hk : (candidates KS ex).getLast? = some k) :
    ∃ d : Draw, d.Valid ∧ ∀ ds, sample KS 1 ex (.num rb) pos (d :: ds) = .value [k] := by
  have hK : candidates KS ex ≠ [] := by rintro e; rw [e] at hk; cases hk
  have hn : 0 < (candidates KS ex).length := List.length_pos_iff.2 hK
  obtain ⟨d, hd, hc⟩ := call_neg_hits h0 _ hK 1 (by push_cast; exact h1)
  refine ⟨d, hd, fun ds => ?_⟩
  rw [sample_one (by linarith), hc, if_neg (by omega), if_pos (by omega), ← List.getLast?_eq_getElem?, hk]

/-- C133: with one of still larger size some draws raise an `IndexError`. -/
theorem C133_negative_index_error (KS ex pos : List ℕ) (rb : ℝ) (h0 : rb < 0) (hK : candidates KS ex ≠ [])
    (h1 : (candidates KS ex).length + 1 < -(2 * rb) * (candidates KS ex).length) :
    ∃ d : Draw, d.Valid ∧ ∀ ds, sample KS 1 ex (.num rb) pos (d :: ds) = .indexError := by
  obtain ⟨d, hd, hc⟩ := call_neg_hits h0 _ hK ((candidates KS ex).length + 1) (by push_cast; exact h1)
  refine ⟨d, hd, fun ds => ?_⟩
  rw [sample_one (by linarith), hc, if_neg (by omega), if_neg (by omega)]

/-! ## Examples -/

theorem demo_candidates : candidates [2, 0, 5, 1, 4, 3] [0] = [2, 5, 1, 4, 3] := by decide

/-- Non-vacuity of `C133_above_one_rejected_partial`. -/
example : sample [2, 0, 5, 1, 4, 3] 1 [0] (.num 2) [] [] = .valueError :=
  (C133_above_one_rejected_partial _ _ _ _ _ _).1 (by norm_num)

example : (0 : ℝ) < 3 / 4 ∧ (3 / 4 : ℝ) ≤ 1 ∧ (∃ k ∈ [2, 0, 5, 1, 4, 3], k ∉ [0]) ∧ (⟨1 / 3, 3 / 4⟩ : Draw).Valid :=
  ⟨by norm_num, by norm_num, by decide, by constructor <;> norm_num⟩

/-- Non-vacuity of `C133_negative_accepted` and `C133_negative_worst`: a setting of -0.3 and five candidates, of which
the one with index 3 is the worst. -/
example : ∃ d : Draw, d.Valid ∧ ∀ ds, sample [2, 0, 5, 1, 4, 3] 1 [0] (.num (-(3 / 10))) [] (d :: ds) = .value [3] :=
  C133_negative_worst _ _ _ _ (by norm_num) (by rw [demo_candidates]; norm_num) 3 (by decide)

example : candidates [2, 0, 5, 1, 4, 3] [0] ≠ [] ∧ (-(3 / 10) : ℝ) < 0 ∧ -(1 / 2) ≤ (-(3 / 10) : ℝ) ∧
    (⟨1 / 3, 3 / 4⟩ : Draw).Valid :=
  ⟨by decide, by norm_num, by norm_num, by constructor <;> norm_num⟩

example := C133_negative_accepted [2, 0, 5, 1, 4, 3] [0] [] (-(3 / 10)) (by norm_num) (by norm_num) (by decide) ⟨1 / 3, 3 / 4⟩
  (by constructor <;> norm_num) []

/-- Non-vacuity of `C133_negative_index_error`: a setting of -1. -/
example : ∃ d : Draw, d.Valid ∧ ∀ ds, sample [2, 0, 5, 1, 4, 3] 1 [0] (.num (-1)) [] (d :: ds) = .indexError :=
  C133_negative_index_error _ _ _ _ (by norm_num) (by decide) (by rw [demo_candidates]; norm_num)

/-- Non-vacuity of `C12_lower_bias_earlier`: settings of 0.25 and 0.5 with the same draw. -/
example : call [5, 7, 9] (1 / 4) ⟨0, 3 / 4⟩ = some 5 ∧ call [5, 7, 9] (1 / 2) ⟨0, 3 / 4⟩ = some 7 := by
  have hd : (⟨0, 3 / 4⟩ : Draw).Valid := by constructor <;> norm_num
  have hs : Real.sqrt (1 - 3 / 4) = 1 / 2 := by
    rw [show (1 - 3 / 4 : ℝ) = (1 / 2) ^ 2 by norm_num, Real.sqrt_sq (by norm_num)]
  have v1 : variate (1 / 4) ⟨0, 3 / 4⟩ = 1 / 4 := by
    unfold variate
    rw [if_neg (by norm_num), triangular0_eq hd.u0, hs]; norm_num
  have v2 : variate (1 / 2) ⟨0, 3 / 4⟩ = 1 / 2 := by
    unfold variate
    rw [if_neg (by norm_num), triangular0_eq hd.u0, hs]; norm_num
  constructor
  · rw [call_of_mem (by norm_num) (by norm_num) _ hd, v1,
      (Nat.floor_eq_iff (by positivity)).2 (by norm_num : ((0 : ℕ) : ℝ) ≤ 1 / 4 * ([5, 7, 9] : List ℕ).length ∧ _)]
    rfl
  · rw [call_of_mem (by norm_num) (by norm_num) _ hd, v2,
      (Nat.floor_eq_iff (by positivity)).2 (by norm_num : ((1 : ℕ) : ℝ) ≤ 1 / 2 * ([5, 7, 9] : List ℕ).length ∧ _)]
    rfl

end Sampler
end Ade
