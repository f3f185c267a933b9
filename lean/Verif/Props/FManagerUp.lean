import Verif.Props.FManager

/-!
# Property C66: scaling the mutation range up again

Reached ranges are those after any sequence of requests on a usable adaptive setting
(`Verif/Props/FManager.lean`).
-/

set_option autoImplicit false

namespace Ade
namespace FManager

variable {K : Type} [Field K] [LinearOrder K] [IsStrictOrderedRing K]

/-- Scaling up is by factors above one. -/
structure GoodUps (c : Consts K) : Prop where
  low : 1 < c.upLow
  high : 1 < c.upHigh
  single : 1 < c.upSingle

/-- The actual constants qualify. -/
theorem actual_goodUps (CR : ℝ) (Np : ℕ) : GoodUps (actual CR Np) := by
  have h : ∀ x : ℝ, 0 < x → x < 1 → 1 < x ^ (-0.88 : ℝ) := fun x h0 h1 =>
    Real.one_lt_rpow_of_pos_of_lt_one_of_neg h0 h1 (by norm_num)
  constructor <;> simp only [actual]
  · exact h _ (by norm_num) (by norm_num)
  · exact h _ (by norm_num) (by norm_num)
  · exact h _ (by norm_num) (by norm_num)

/-- `n` scale-ups in a row. -/
def ups (c : Consts K) (n : ℕ) (m : FM K) : FM K := run c m (List.replicate n .up)

omit [IsStrictOrderedRing K] in
theorem ups_succ (c : Consts K) (n : ℕ) (m : FM K) : ups c (n + 1) m = up c (ups c n m) := by
  simp only [ups, List.replicate_succ', run, List.foldl_append, List.foldl_cons, List.foldl_nil, step]

omit [IsStrictOrderedRing K] in
theorem ups_add (c : Consts K) (n k : ℕ) (m : FM K) : ups c (n + k) m = ups c k (ups c n m) := by
  simp only [ups, ← List.replicate_append_replicate, run, List.foldl_append]

omit [IsStrictOrderedRing K] in
/-- A scale-up of an adaptive range whose upper limit is below the original one. -/
theorem up_high {c : Consts K} {m : FM K} (ha : m.adaptive = true) {lo hi : K}
    (hF : m.F = .range lo hi) (h : hi < m.origHi) :
    up c m = { m with limited := false, F := .range lo (min (hi * c.upHigh) m.origHi) } := by
  obtain ⟨F, a, ol, oh, l⟩ := m
  cases ha
  simp only at hF h
  subst hF
  simp [up, h, setHighest]

/-- A scale-up of an adaptive range whose upper limit is the original one. -/
theorem up_low {c : Consts K} (hu : GoodUps c) {m : FM K} (ha : m.adaptive = true) {lo hi : K}
    (hF : m.F = .range lo hi) (h : m.origHi ≤ hi) (h0 : 0 < lo) (hl : lo ≤ m.origLo) :
    up c m = { m with limited := false, F := .range (min (lo * c.upLow) m.origLo) hi } := by
  obtain ⟨F, a, ol, oh, l⟩ := m
  cases ha
  simp only at hF h hl
  subst hF
  rcases hl.lt_or_eq with hl | rfl
  · simp [up, upLowest, up0, FVal.lowest, not_lt.2 h, hl, setLowest]
  · simp [up, upLowest, FVal.lowest, not_lt.2 h]
    have := hu.low
    nlinarith

/-- A scale-up of an adaptive single factor. -/
theorem up_single {c : Consts K} (hu : GoodUps c) {m : FM K} (ha : m.adaptive = true) {x : K}
    (hF : m.F = .single x) (h0 : 0 < x) (hl : x ≤ m.origLo) :
    up c m = { m with limited := false, F := .single (min (x * c.upSingle) m.origLo) } := by
  obtain ⟨F, a, ol, oh, l⟩ := m
  cases ha
  simp only at hF hl
  subst hF
  rcases hl.lt_or_eq with hl | rfl
  · simp [up, upLowest, up0, FVal.lowest, hl, setLowest]
  · simp [up, upLowest, FVal.lowest]
    have := hu.single
    nlinarith

/-- Everything a reached state offers. -/
theorem reached {c : Consts K} (hc : GoodConsts c) {F : FVal K} (hF : Usable F) (ops : List Op) :
    let m := run c (init c F true) ops
    Inv m ∧ m.origLo = F.lowest ∧ m.origHi = F.highest ∧ m.adaptive = true := by
  obtain ⟨h1, -, h3, h4⟩ := inv_init (c := c) hF true
  obtain ⟨h5, h6, h7⟩ := inv_run hc ops h1
  refine ⟨h5, h6.trans h3, h7.trans h4, ?_⟩
  rw [run_adaptive]
  cases F with
  | range lo hi => simp [init, hF.1.ne']
  | single x => rfl

omit [IsStrictOrderedRing K] in
/-- Requests keep the kind of setting: a range stays a range and a single factor a single factor. -/
theorem run_kind (c : Consts K) (ops : List Op) (m : FM K) :
    (∃ lo hi, m.F = .range lo hi) ↔ ∃ lo hi, (run c m ops).F = .range lo hi := by
  induction ops generalizing m with
  | nil => rfl
  | cons o os ih =>
    rw [run, List.foldl_cons, ← run, ← ih]
    obtain ⟨F, a, ol, oh, l⟩ := m
    cases o <;> cases a <;> cases F <;>
      simp only [step, up, down, upLowest, setLowest, setHighest, Bool.not_true, Bool.not_false,
        Bool.false_eq_true, if_false, if_true] <;>
      split_ifs <;> simp

/-! ## C66 -/

/-- C66: one scale-up raises exactly one of the limits that have been lowered, the upper one first,
and by no more than to its original value; with nothing lowered it changes nothing. -/
theorem C66_up_raises_range (c : Consts K) (hc : GoodConsts c) (hu : GoodUps c) (lo₀ hi₀ : K)
    (hF : Usable (.range lo₀ hi₀)) (ops : List Op) (lo hi : K)
    (hm : (run c (init c (.range lo₀ hi₀) true) ops).F = .range lo hi) :
    ∃ lo' hi', (run c (init c (.range lo₀ hi₀) true) (ops ++ [.up])).F = .range lo' hi' ∧
      (hi < hi₀ → lo' = lo ∧ hi < hi' ∧ hi' ≤ hi₀) ∧
      (hi = hi₀ → hi' = hi₀ ∧ (lo < lo₀ → lo < lo' ∧ lo' ≤ lo₀) ∧ (lo = lo₀ → lo' = lo₀)) := by
  obtain ⟨h1, h2, h3, h4⟩ := reached hc hF ops
  have hrun : run c (init c (.range lo₀ hi₀) true) (ops ++ [.up]) =
      up c (run c (init c (.range lo₀ hi₀) true) ops) := by simp [run, step]
  rw [hrun]
  generalize run c (init c (.range lo₀ hi₀) true) ops = m at *
  obtain ⟨p, hle, hlo, hhi, horig⟩ := h1
  rw [h2] at hlo
  rw [h3] at hhi
  simp only [hm, FVal.lowest, FVal.highest] at p hle hlo hhi h2 h3
  have hlow := hu.low
  have hhigh := hu.high
  by_cases h : hi < hi₀
  · refine ⟨lo, min (hi * c.upHigh) hi₀, ?_, fun _ => ⟨rfl, lt_min (by nlinarith) h, min_le_right _ _⟩,
      fun h' => absurd h' h.ne⟩
    rw [up_high h4 hm (by rw [h3]; exact h), h3]
  · have he : hi = hi₀ := le_antisymm hhi (not_lt.1 h)
    refine ⟨min (lo * c.upLow) lo₀, hi, ?_, fun h' => absurd h' h, fun _ => ⟨he, ?_, ?_⟩⟩
    · rw [up_low hu h4 hm (by rw [h3]; exact he.ge) p (by rw [h2]; exact hlo), h2]
    · exact fun h' => ⟨lt_min (by nlinarith) h', min_le_right _ _⟩
    · rintro rfl; exact min_eq_right (by nlinarith)

/-- C66: one scale-up raises a lowered single factor, by no more than to its original value; with
nothing lowered it changes nothing. -/
theorem C66_up_raises_single (c : Consts K) (hc : GoodConsts c) (hu : GoodUps c) (x₀ : K)
    (hF : Usable (.single x₀)) (ops : List Op) (x : K)
    (hm : (run c (init c (.single x₀) true) ops).F = .single x) :
    ∃ x', (run c (init c (.single x₀) true) (ops ++ [.up])).F = .single x' ∧
      (x < x₀ → x < x' ∧ x' ≤ x₀) ∧ (x = x₀ → x' = x₀) := by
  obtain ⟨h1, h2, h3, h4⟩ := reached hc hF ops
  have hrun : run c (init c (.single x₀) true) (ops ++ [.up]) =
      up c (run c (init c (.single x₀) true) ops) := by simp [run, step]
  rw [hrun]
  generalize run c (init c (.single x₀) true) ops = m at *
  obtain ⟨p, hle, hlo, hhi, horig⟩ := h1
  rw [h2] at hlo
  simp only [hm, FVal.lowest] at p hlo h2
  have hs := hu.single
  refine ⟨min (x * c.upSingle) x₀, ?_, fun h => ⟨lt_min (by nlinarith) h, min_le_right _ _⟩, ?_⟩
  · rw [up_single hu h4 hm p (by rw [h2]; exact hlo), h2]
  · rintro rfl; exact min_eq_right (by nlinarith)

/-- A range whose upper limit is the original one, after `n` scale-ups. -/
theorem ups_low {c : Consts K} (hu : GoodUps c) {m : FM K} (ha : m.adaptive = true) {lo hi : K}
    (hF : m.F = .range lo hi) (h : m.origHi ≤ hi) (h0 : 0 < lo) (hl : lo ≤ m.origLo) (n : ℕ) :
    (ups c n m).F = .range (min (lo * c.upLow ^ n) m.origLo) hi ∧ (ups c n m).adaptive = true ∧
      (ups c n m).origLo = m.origLo ∧ (ups c n m).origHi = m.origHi := by
  induction n with
  | zero => simp [ups, run, hF, ha, hl]
  | succ n ih =>
    obtain ⟨i1, i2, i3, i4⟩ := ih
    have hp : 0 < min (lo * c.upLow ^ n) m.origLo :=
      lt_min (mul_pos h0 (pow_pos (zero_lt_one.trans hu.low) n)) (h0.trans_le hl)
    rw [ups_succ, up_low hu i2 i1 (by rw [i4]; exact h) hp (by rw [i3]; exact min_le_right _ _)]
    refine ⟨?_, i2, i3, i4⟩
    simp only [i3]
    congr 1
    have hlow := hu.low
    rw [min_mul_of_nonneg _ _ (zero_lt_one.trans hlow).le, min_assoc, pow_succ, ← mul_assoc,
      min_eq_right (a := m.origLo * c.upLow)]
    have := h0.trans_le hl
    nlinarith

/-- A single factor after `n` scale-ups. -/
theorem ups_single {c : Consts K} (hu : GoodUps c) {m : FM K} (ha : m.adaptive = true) {x : K}
    (hF : m.F = .single x) (h0 : 0 < x) (hl : x ≤ m.origLo) (n : ℕ) :
    (ups c n m).F = .single (min (x * c.upSingle ^ n) m.origLo) ∧ (ups c n m).adaptive = true ∧
      (ups c n m).origLo = m.origLo := by
  induction n with
  | zero => simp [ups, run, hF, ha, hl]
  | succ n ih =>
    obtain ⟨i1, i2, i3⟩ := ih
    have hp : 0 < min (x * c.upSingle ^ n) m.origLo :=
      lt_min (mul_pos h0 (pow_pos (zero_lt_one.trans hu.single) n)) (h0.trans_le hl)
    rw [ups_succ, up_single hu i2 i1 hp (by rw [i3]; exact min_le_right _ _)]
    refine ⟨?_, i2, i3⟩
    simp only [i3]
    congr 1
    have hlow := hu.single
    rw [min_mul_of_nonneg _ _ (zero_lt_one.trans hlow).le, min_assoc, pow_succ, ← mul_assoc,
      min_eq_right (a := m.origLo * c.upSingle)]
    have := h0.trans_le hl
    nlinarith

/-- The upper limit gets back to its original value. -/
theorem ups_high [Archimedean K] {c : Consts K} (hu : GoodUps c) {m : FM K} (ha : m.adaptive = true)
    {lo hi : K} (hF : m.F = .range lo hi) (h0 : 0 < hi) (hl : hi ≤ m.origHi) :
    ∃ n, (ups c n m).F = .range lo m.origHi ∧ (ups c n m).adaptive = true ∧
      (ups c n m).origLo = m.origLo ∧ (ups c n m).origHi = m.origHi := by
  by_contra hno
  have key : ∀ n, (ups c n m).F = .range lo (hi * c.upHigh ^ n) ∧ hi * c.upHigh ^ n < m.origHi ∧
      (ups c n m).adaptive = true ∧ (ups c n m).origLo = m.origLo ∧
      (ups c n m).origHi = m.origHi := by
    intro n
    induction n with
    | zero =>
      refine ⟨by simp [ups, run, hF], ?_, ha, rfl, rfl⟩
      rcases hl.lt_or_eq with hl | rfl
      · simpa using hl
      · exact absurd ⟨0, by simp [ups, run, hF], ha, rfl, rfl⟩ hno
    | succ n ih =>
      obtain ⟨i1, i2, i3, i4, i5⟩ := ih
      have hup := up_high (c := c) i3 i1 (by rw [i5]; exact i2)
      rw [← ups_succ] at hup
      by_cases hlt : hi * c.upHigh ^ n * c.upHigh < m.origHi
      · rw [hup]
        refine ⟨?_, by rw [pow_succ, ← mul_assoc]; exact hlt, i3, i4, i5⟩
        simp only [i5, min_eq_left hlt.le, pow_succ, ← mul_assoc]
      · exfalso
        refine hno ⟨n + 1, ?_⟩
        rw [hup]
        exact ⟨by simp only [i5, min_eq_right (not_lt.1 hlt)], i3, i4, i5⟩
  obtain ⟨n, hn⟩ := pow_unbounded_of_one_lt (m.origHi / hi) hu.high
  rw [div_lt_iff₀ h0] at hn
  have := (key n).2.1
  rw [mul_comm] at hn
  exact absurd this (not_lt.2 hn.le)

/-- C66: whatever requests came before, sufficiently many consecutive scale-ups restore the original
setting, and further ones leave it so. -/
theorem C66_ups_restore [Archimedean K] (c : Consts K) (hc : GoodConsts c) (hu : GoodUps c)
    (F : FVal K) (hF : Usable F) (ops : List Op) :
    ∃ n, ∀ k, n ≤ k →
      (run c (init c F true) (ops ++ List.replicate k .up)).F = F := by
  obtain ⟨h1, h2, h3, h4⟩ := reached hc hF ops
  have hkind := run_kind c ops (init c F true)
  rw [(inv_init (c := c) hF true).2.1] at hkind
  have hrun : ∀ k, run c (init c F true) (ops ++ List.replicate k .up) =
      ups c k (run c (init c F true) ops) := fun k => by simp [run, ups]
  simp only [hrun]
  generalize run c (init c F true) ops = m at *
  obtain ⟨p, hle, hlo, hhi, horig⟩ := h1
  cases hmF : m.F with
  | range lo hi =>
    simp only [hmF, FVal.lowest, FVal.highest] at p hle hlo hhi
    obtain ⟨lo₀, hi₀, rfl⟩ := hkind.2 ⟨lo, hi, hmF⟩
    simp only [FVal.lowest, FVal.highest] at h2 h3
    obtain ⟨n, n1, n2, n3, n4⟩ := ups_high hu h4 hmF (p.trans_le hle) hhi
    obtain ⟨k, hk⟩ := pow_unbounded_of_one_lt (m.origLo / lo) hu.low
    rw [div_lt_iff₀ p, mul_comm] at hk
    refine ⟨n + k, fun j hj => ?_⟩
    obtain ⟨i, rfl⟩ := Nat.exists_eq_add_of_le hj
    rw [add_assoc, ups_add, (ups_low hu n2 n1 n4.le p (by rw [n3]; exact hlo) (k + i)).1, n3, h3, h2]
    congr 1
    rw [← h2]
    refine min_eq_right (hk.le.trans ?_)
    rw [pow_add, ← mul_assoc]
    exact le_mul_of_one_le_right (mul_pos p (pow_pos (zero_lt_one.trans hu.low) k)).le
      (one_le_pow₀ hu.low.le)
  | single x =>
    simp only [hmF, FVal.lowest, FVal.highest] at p hle hlo hhi
    cases F with
    | range lo₀ hi₀ =>
      obtain ⟨a, b, hab⟩ := hkind.1 ⟨lo₀, hi₀, rfl⟩
      rw [hmF] at hab; cases hab
    | single x₀ =>
      simp only [FVal.lowest] at h2
      obtain ⟨k, hk⟩ := pow_unbounded_of_one_lt (m.origLo / x) hu.single
      rw [div_lt_iff₀ p, mul_comm] at hk
      refine ⟨k, fun j hj => ?_⟩
      obtain ⟨i, rfl⟩ := Nat.exists_eq_add_of_le hj
      rw [(ups_single hu h4 hmF p hlo (k + i)).1]
      congr 1
      rw [← h2]
      refine min_eq_right (hk.le.trans ?_)
      rw [pow_add, ← mul_assoc]
      exact le_mul_of_one_le_right (mul_pos p (pow_pos (zero_lt_one.trans hu.single) k)).le
        (one_le_pow₀ hu.single.le)

/-- Documentation against code: the description of `up` says that the upper limit "is returned to its
original value"; after several scale-downs one scale-up does not do that. -/
theorem C66_one_up_not_enough :
    (run demo (init demo (.range (12 / 100) 1) true) [.down, .down, .down, .up]).F ≠
      .range (12 / 100) 1 ∧
    (run demo (init demo (.range (12 / 100) 1) true) [.down, .down, .down, .up]).F.highest < 1 := by
  decide +kernel

/-- Non-vacuity: two scale-downs undone by scale-ups, the upper limit first. -/
example : GoodUps demo ∧ Usable (K := ℚ) (.range (12 / 100) 1) ∧
    (run demo (init demo (.range (12 / 100) 1) true) [.down, .down, .up]).F =
      .range (1068 / 10000) (957 / 1000) ∧
    (run demo (init demo (.range (12 / 100) 1) true) [.down, .down, .up, .up, .up, .up]).F =
      .range (12 / 100) 1 := by
  refine ⟨by constructor <;> norm_num [demo], by norm_num [Usable], ?_, ?_⟩ <;> decide +kernel

theorem demo_ups : GoodUps demo := by constructor <;> norm_num [demo]

example := C66_up_raises_range demo demo_good demo_ups (12 / 100) (4 / 10) demo_usable [.down, .down]
  (1068 / 10000) (348 / 1000) (by decide +kernel)

example := C66_up_raises_single demo demo_good demo_ups 1 (by norm_num [Usable]) [.down, .down]
  (7921 / 10000) (by decide +kernel)

example := C66_ups_restore demo demo_good demo_ups _ demo_usable [.down, .down, .up]

end FManager
end Ade
