import Verif.Props.RunLoop
import Verif.Props.FManagerDoc
import Mathlib.Data.List.TakeWhile

/-!
# Property C136: how soon a run without progress ends

The documentation of `bitterEnd` (ade/de.py:337-341) and `dwellByGrave` (ade/de.py:343-347) promises
that a run is stopped when there are too few successful challenges. The theorems bound the number of
generations that takes, from any point of any run on.
-/

set_option autoImplicit false

namespace Ade
namespace RunLoop

open FManager

variable {K : Type} [Field K] [LinearOrder K]

/-! ## Specification -/

/-- From generation `g` on, for `T` generations, none is successful enough for the range to be left
alone or raised. -/
def Fruitless (env : ℕ → Env) (g T : ℕ) : Prop := ∀ i, g ≤ i → i < g + T → (env i).keep = false

/-- The run is over before generation `g`: no later generation is announced, and the run did not end
by reaching its maximum number of generations unless that is less than `g`. -/
def OverBefore (g maxiter : ℕ) (r : List Event × Outcome) : Prop :=
  (∀ j, Event.generation j ∈ r.1 → j < g) ∧ (r.2 = .maximum → maxiter < g)

/-! ## Lemmas -/

section
variable [IsStrictOrderedRing K]

/-- The range after `a` reductions of its lower limit and `b` of its upper limit, at most. -/
structure Shrunk (c : Consts K) (oLo oHi : K) (a b : ℕ) (m : FM K) : Prop where
  inv : Inv m
  adaptive : m.adaptive = true
  above : c.crit < m.F.lowest
  isRange : ∃ lo hi, m.F = .range lo hi
  lo : m.F.lowest ≤ oLo * c.sLow ^ a
  hi : m.F.highest ≤ oHi * c.sHigh ^ b

omit [IsStrictOrderedRing K] in
theorem evolve_generation (cfg : Cfg) (e : Env) (kg j : ℕ)
    (h : Event.generation j ∈ (evolve cfg e kg).1) : j = kg := by
  obtain ⟨ps, i, rest, -, -, h3, h4⟩ := evolve_shape cfg e kg
  rw [h3] at h
  have hr : Event.generation j ∉ rest := by
    split at h4
    · simp [h4.2]
    · rcases h4 with h | h <;> simp [h]
  simpa [hr] using h

/-- One generation without success brings the end nearer. -/
theorem shrunk_down {c : Consts K} (hc : GoodConsts c) {oLo oHi : K} {A B : ℕ}
    (hA : oLo * c.sLow ^ A ≤ c.crit) (hB : oHi * c.sHigh ^ B ≤ c.ratio * c.crit)
    {a b : ℕ} {m : FM K} (ha : a < A) (hb : b < B) (hm : Shrunk c oLo oHi a b m) :
    (a + 1 < A ∧ Shrunk c oLo oHi (a + 1) b (down c m)) ∨
    (b + 1 < B ∧ Shrunk c oLo oHi a (b + 1) (down c m)) ∨
    (Shrunk c oLo oHi a b (down c m) ∧ (down c m).limited = true) := by
  have hinv := inv_down hc hm.inv
  have hd := down_spec hc hm.inv
  obtain ⟨-, had, hcr, ⟨lo, hi, hF⟩, h1, h2⟩ := hm
  have pA : ∀ {x : K}, x ≤ oLo * c.sLow ^ (a + 1) → c.crit < x → a + 1 < A := by
    intro x hx hcx
    rcases Nat.lt_or_ge (a + 1) A with h | h
    · exact h
    · have : a + 1 = A := by omega
      rw [this] at hx
      exact absurd (lt_of_lt_of_le hcx (hx.trans hA)) (lt_irrefl _)
  have pB : ∀ {x : K}, x ≤ oHi * c.sHigh ^ (b + 1) → c.ratio * c.crit < x → b + 1 < B := by
    intro x hx hcx
    rcases Nat.lt_or_ge (b + 1) B with h | h
    · exact h
    · have : b + 1 = B := by omega
      rw [this] at hx
      exact absurd (lt_of_lt_of_le hcx (hx.trans hB)) (lt_irrefl _)
  generalize down c m = m' at hd hinv
  cases hd with
  | off h => rw [had] at h; cases h
  | low lo' hi' _ hF' h3 =>
    rw [hF'] at h1 h2
    simp only [FVal.lowest, FVal.highest] at h1 h2
    have h4 : c.sLow * lo' ≤ oLo * c.sLow ^ (a + 1) := by
      rw [pow_succ, ← mul_assoc, mul_comm c.sLow]
      exact mul_le_mul_of_nonneg_right h1 hc.low0.le
    exact .inl ⟨pA h4 h3, hinv, had, h3, ⟨_, _, rfl⟩, h4, h2⟩
  | one x _ hF' => rw [hF] at hF'; cases hF'
  | high lo' hi' _ hF' h3 h4 =>
    rw [hF'] at h1 h2 hcr
    simp only [FVal.lowest, FVal.highest] at h1 h2 hcr
    have h5 : c.sHigh * hi' ≤ oHi * c.sHigh ^ (b + 1) := by
      rw [pow_succ, ← mul_assoc, mul_comm c.sHigh]
      exact mul_le_mul_of_nonneg_right h2 hc.high0.le
    have h6 : c.ratio * c.crit < c.sHigh * hi' :=
      lt_trans (mul_lt_mul_of_pos_left hcr (lt_of_lt_of_le one_pos hc.ratio)) h4
    exact .inr (.inl ⟨pB h5 h6, hinv, had, hcr, ⟨_, _, rfl⟩, h1, h5⟩)
  | stuckRange => exact .inr (.inr ⟨⟨hinv, had, hcr, ⟨lo, hi, hF⟩, h1, h2⟩, rfl⟩)
  | stuckOne x _ hF' => rw [hF] at hF'; cases hF'

/-- A single value after `a` reductions at most. -/
structure ShrunkOne (c : Consts K) (o : K) (a : ℕ) (m : FM K) : Prop where
  inv : Inv m
  adaptive : m.adaptive = true
  above : c.crit < m.F.lowest
  isSingle : ∃ x, m.F = .single x
  lo : m.F.lowest ≤ o * c.sSingle ^ a

theorem shrunkOne_down {c : Consts K} (hc : GoodConsts c) {o : K} {A : ℕ}
    (hA : o * c.sSingle ^ A ≤ c.crit) {a : ℕ} {m : FM K} (ha : a < A)
    (hm : ShrunkOne c o a m) :
    (a + 1 < A ∧ ShrunkOne c o (a + 1) (down c m)) ∨
    (ShrunkOne c o a (down c m) ∧ (down c m).limited = true) := by
  have hinv := inv_down hc hm.inv
  have hd := down_spec hc hm.inv
  obtain ⟨-, had, hcr, ⟨x, hF⟩, h1⟩ := hm
  generalize down c m = m' at hd hinv
  cases hd with
  | off h => rw [had] at h; cases h
  | low lo' hi' _ hF' => rw [hF] at hF'; cases hF'
  | one y _ hF' h3 =>
    rw [hF'] at h1
    simp only [FVal.lowest] at h1
    have h4 : c.sSingle * y ≤ o * c.sSingle ^ (a + 1) := by
      rw [pow_succ, ← mul_assoc, mul_comm c.sSingle]
      exact mul_le_mul_of_nonneg_right h1 hc.single0.le
    refine .inl ⟨?_, hinv, had, h3, ⟨_, rfl⟩, h4⟩
    rcases Nat.lt_or_ge (a + 1) A with h | h
    · exact h
    · have : a + 1 = A := by omega
      rw [this] at h4
      exact absurd (lt_of_lt_of_le h3 (h4.trans hA)) (lt_irrefl _)
  | high lo' hi' _ hF' => rw [hF] at hF'; cases hF'
  | stuckRange lo' hi' _ hF' => rw [hF] at hF'; cases hF'
  | stuckOne => exact .inr ⟨⟨hinv, had, hcr, ⟨x, hF⟩, h1⟩, rfl⟩

end

/-- A measure of the state that a generation without success lowers, unless it reports a limit, ends
the run within that many generations and as many more as the run hangs around. -/
theorem loop_over (cfg : Cfg) (c : Consts K) (env : ℕ → Env) (hb : cfg.bitterEnd = false)
    (P : ℕ → FM K → Prop)
    (hP : ∀ v m, P v m → (∃ w, w < v ∧ P w (down c m)) ∨ (P v (down c m) ∧ (down c m).limited = true))
    (k : ℕ) : ∀ (v : ℕ) (m : FM K) (d n kg : ℕ), P v m → d ≤ cfg.dwellByGrave →
      v + (cfg.dwellByGrave + 1 - d) ≤ k → Fruitless env kg k →
      OverBefore (kg + k) (kg + n) (loop cfg c env n kg m d) := by
  induction k with
  | zero => intro v m d n kg _ h1 h2; omega
  | succ k ih =>
    intro v m d n kg hm hd hk hf
    cases n with
    | zero => exact ⟨by simp [loop], fun _ => by omega⟩
    | succ n =>
      have hev := evolve_generation cfg (env kg) kg
      have hkeep := hf kg le_rfl (by omega)
      have hf' : Fruitless env (kg + 1) k := fun i h1 h2 => hf i (by omega) (by omega)
      have next : ∀ (w d' : ℕ), P w (down c m) → d' ≤ cfg.dwellByGrave →
          w + (cfg.dwellByGrave + 1 - d') ≤ k →
          OverBefore (kg + (k + 1)) (kg + (n + 1))
            ((evolve cfg (env kg) kg).1 ++ .down :: .callback kg ::
              (loop cfg c env n (kg + 1) (down c m) d').1,
              (loop cfg c env n (kg + 1) (down c m) d').2) := by
        intro w d' h1 h2 h3
        have := ih w (down c m) d' n (kg + 1) h1 h2 h3 hf'
        refine ⟨?_, fun h => by have := this.2 h; omega⟩
        intro j hj
        simp only [List.mem_append, List.mem_cons, reduceCtorEq, false_or] at hj
        rcases hj with hj | hj
        · have := hev j hj; omega
        · have := this.1 j hj; omega
      simp only [loop, hkeep, hb]
      simp only [Bool.not_false, Bool.true_and, Bool.false_eq_true, if_false]
      by_cases h1 : (!(evolve cfg (env kg) kg).2) = true
      · rw [if_pos h1]
        exact ⟨fun j hj => by have := hev j hj; omega, fun h => by cases h⟩
      · rw [if_neg h1]
        by_cases h2 : goalSet cfg = true
        · rw [if_pos h2]
          exact ⟨fun j hj => by have := hev j hj; omega, fun h => by cases h⟩
        · rw [if_neg h2]
          rcases hP v m hm with ⟨w, hw, h3⟩ | ⟨h3, h4⟩
          · split_ifs with h5 h6
            · refine ⟨fun j hj => ?_, fun h => by cases h⟩
              simp only [List.mem_append, List.mem_cons, reduceCtorEq, List.not_mem_nil, or_false] at hj
              have := hev j hj; omega
            · exact next w (d + 1) h3 (by omega) (by omega)
            · exact next w d h3 hd (by omega)
          · rw [if_pos h4]
            split_ifs with h6
            · refine ⟨fun j hj => ?_, fun h => by cases h⟩
              simp only [List.mem_append, List.mem_cons, reduceCtorEq, List.not_mem_nil, or_false] at hj
              have := hev j hj; omega
            · exact next v (d + 1) h3 (by omega) (by omega)

/-- The same from a later generation on, for a property `Q` of the state that all requests keep and
that gives the measure a start. -/
theorem loop_over_from (cfg : Cfg) (c : Consts K) (env : ℕ → Env) (hb : cfg.bitterEnd = false)
    (P : ℕ → FM K → Prop)
    (hP : ∀ v m, P v m → (∃ w, w < v ∧ P w (down c m)) ∨ (P v (down c m) ∧ (down c m).limited = true))
    (Q : FM K → Prop) (hQ : ∀ o m, Q m → Q (step c m o)) (V : ℕ) (hQP : ∀ m, Q m → P V m)
    (g T : ℕ) (hT : V + (cfg.dwellByGrave + 1) ≤ T) (hf : Fruitless env g T) (n : ℕ) :
    ∀ (m : FM K) (d kg : ℕ), kg ≤ g → Q m → d ≤ cfg.dwellByGrave →
      OverBefore (g + T) (kg + n) (loop cfg c env n kg m d) := by
  induction n with
  | zero => intro m d kg h1 _ _; exact ⟨by simp [loop], fun _ => by omega⟩
  | succ n ih =>
    intro m d kg hkg hm hd
    rcases Nat.eq_or_lt_of_le hkg with rfl | hlt
    · exact loop_over cfg c env hb P hP T V m d (n + 1) kg (hQP m hm) hd (by omega) hf
    · have hev := evolve_generation cfg (env kg) kg
      have next : ∀ (o : Op) (e : Event) (d' : ℕ), (e = .up ∨ e = .down) → d' ≤ cfg.dwellByGrave →
          OverBefore (g + T) (kg + (n + 1))
            ((evolve cfg (env kg) kg).1 ++ e :: .callback kg ::
              (loop cfg c env n (kg + 1) (step c m o) d').1,
              (loop cfg c env n (kg + 1) (step c m o) d').2) := by
        intro o e d' he h2
        have := ih (step c m o) d' (kg + 1) hlt (hQ o m hm) h2
        refine ⟨?_, fun h => by have := this.2 h; omega⟩
        intro j hj
        have he' : Event.generation j ≠ e := by rcases he with rfl | rfl <;> simp
        simp only [List.mem_append, List.mem_cons, reduceCtorEq, he', false_or] at hj
        rcases hj with hj | hj
        · have := hev j hj; omega
        · exact this.1 j hj
      simp only [loop, hb]
      simp only [Bool.not_false, Bool.true_and]
      split_ifs with h1 h2 h3 h4 h5
      · exact ⟨fun j hj => by have := hev j hj; omega, fun h => by cases h⟩
      · exact ⟨fun j hj => by have := hev j hj; omega, fun h => by cases h⟩
      · exact next .up .up 0 (.inl rfl) (by omega)
      · refine ⟨fun j hj => ?_, fun h => by cases h⟩
        simp only [List.mem_append, List.mem_cons, reduceCtorEq, List.not_mem_nil, or_false] at hj
        have := hev j hj; omega
      · exact next .down .down (d + 1) (.inr rfl) (by omega)
      · exact next .down .down d (.inr rfl) hd

/-- Report and shutdown announce no generation. -/
theorem run_over {cfg : Cfg} {c : Consts K} {env : ℕ → Env} {F : FVal K} {adaptive : Bool} {g : ℕ}
    (h : OverBefore g cfg.maxiter (loop cfg c env cfg.maxiter 0 (init c F adaptive) 0)) :
    OverBefore g cfg.maxiter (run cfg c env F adaptive) := by
  refine ⟨?_, fun h' => h.2 (by rwa [run_outcome] at h')⟩
  intro j hj
  apply h.1 j
  unfold run at hj
  simp only at hj
  cases ho : (loop cfg c env cfg.maxiter 0 (init c F adaptive) 0).2 with
  | maximum =>
    simp only [ho] at hj
    split at hj
    · simpa using hj
    · exact hj
  | gaveUp k => simp only [ho] at hj; simpa using hj
  | aborted k => simpa only [ho] using hj
  | typeError k => simpa only [ho] using hj

section
variable [IsStrictOrderedRing K]

/-- What all requests keep. -/
structure Kept (c : Consts K) (F : FVal K) (m : FM K) : Prop where
  reached : ∃ ops, m = FManager.run c (init c F true) ops

omit [IsStrictOrderedRing K] in
theorem kept_step (c : Consts K) (F : FVal K) (o : Op) (m : FM K) (h : Kept c F m) :
    Kept c F (step c m o) := by
  obtain ⟨ops, rfl⟩ := h.reached
  exact ⟨ops ++ [o], by simp [FManager.run]⟩

theorem kept_shrunk {c : Consts K} (hc : GoodConsts c) {lo hi : K} {m : FM K}
    (hU : Usable (.range lo hi : FVal K)) (hlo : c.crit < lo)
    (hm : Kept c (.range lo hi) m) : Shrunk c lo hi 0 0 m := by
  obtain ⟨ops, rfl⟩ := hm.reached
  have h1 := C21_range_within_limits c hc (.range lo hi) hU true ops
  have h2 := C22_stays_above_critical c hc (.range lo hi) hU true hlo ops
  have h3 := inv_run hc ops (inv_init (c := c) hU true).1
  refine ⟨h3.1, ?_, h2, run_range c lo hi true ops, ?_, ?_⟩
  · rw [run_adaptive]; simp [init, (hU.1).ne']
  · rw [pow_zero, mul_one]; exact h1.2.2.1
  · rw [pow_zero, mul_one]; exact h1.2.2.2

theorem kept_shrunkOne {c : Consts K} (hc : GoodConsts c) {x : K} {m : FM K}
    (hU : Usable (.single x : FVal K)) (hlo : c.crit < x)
    (hm : Kept c (.single x) m) : ShrunkOne c x 0 m := by
  obtain ⟨ops, rfl⟩ := hm.reached
  have h1 := C21_range_within_limits c hc (.single x) hU true ops
  have h2 := C22_stays_above_critical c hc (.single x) hU true hlo ops
  have h3 := inv_run hc ops (inv_init (c := c) hU true).1
  refine ⟨h3.1, ?_, h2, run_single c x true ops, ?_⟩
  · rw [run_adaptive]; rfl
  · rw [pow_zero, mul_one]; exact h1.2.2.1

/-- C136: from any generation `g` of any run of an adaptive range on, if `A` reductions would take the
original lower limit to the critical value and `B` reductions the original upper limit to the least
multiple of it, then the run is over after `A - 1 + (B - 1)` generations without success and one more
than the configured number it hangs around. -/
theorem C136_range_bound_partial (cfg : Cfg) (c : Consts K) (hc : GoodConsts c) (env : ℕ → Env)
    (hb : cfg.bitterEnd = false) (lo hi : K) (hlo : c.crit < lo) (hle : lo ≤ hi) (A B : ℕ)
    (hA : lo * c.sLow ^ A ≤ c.crit) (hB : hi * c.sHigh ^ B ≤ c.ratio * c.crit)
    (g T : ℕ) (hT : A - 1 + (B - 1) + (cfg.dwellByGrave + 1) ≤ T) (hf : Fruitless env g T) :
    OverBefore (g + T) cfg.maxiter (run cfg c env (.range lo hi) true) := by
  have hpos : 0 < lo := hc.crit.trans hlo
  have hU : Usable (.range lo hi : FVal K) := ⟨hpos, hle⟩
  have hA0 : 0 < A := by
    rcases Nat.eq_zero_or_pos A with rfl | h
    · rw [pow_zero, mul_one] at hA; exact absurd (lt_of_lt_of_le hlo hA) (lt_irrefl _)
    · exact h
  apply run_over
  by_cases hB0 : B = 0
  · -- the upper limit is already at the least multiple
    subst hB0
    have h := loop_over_from cfg c env hb
      (fun v m => ∃ a, a < A ∧ v = A - 1 - a ∧ Shrunk c lo hi a 0 m)
      (fun v m ⟨a, ha, hv, hm⟩ => by
        have hB' : hi * c.sHigh ^ 1 ≤ c.ratio * c.crit := by
          rw [pow_zero, mul_one] at hB
          rw [pow_one]
          have := hc.high1
          have := hc.high0
          have h0 : 0 < hi := lt_of_lt_of_le hpos hle
          nlinarith
        rcases shrunk_down hc hA hB' ha one_pos hm with ⟨h1, h2⟩ | ⟨h1, h2⟩ | ⟨h1, h2⟩
        · exact .inl ⟨A - 1 - (a + 1), by omega, a + 1, h1, rfl, h2⟩
        · omega
        · exact .inr ⟨⟨a, ha, hv, h1⟩, h2⟩)
      (Kept c (.range lo hi)) (kept_step c _) (A - 1)
      (fun m hm => ?_) g T (by omega) hf cfg.maxiter (init c (.range lo hi) true) 0 0
      (Nat.zero_le _) ⟨[], rfl⟩ (Nat.zero_le _)
    · simpa using h
    · exact ⟨0, hA0, rfl, kept_shrunk hc hU hlo hm⟩
  · have h := loop_over_from cfg c env hb
      (fun v m => ∃ a b, a < A ∧ b < B ∧ v = A - 1 - a + (B - 1 - b) ∧ Shrunk c lo hi a b m)
      (fun v m ⟨a, b, ha, hb, hv, hm⟩ => by
        rcases shrunk_down hc hA hB ha hb hm with ⟨h1, h2⟩ | ⟨h1, h2⟩ | ⟨h1, h2⟩
        · exact .inl ⟨A - 1 - (a + 1) + (B - 1 - b), by omega, a + 1, b, h1, hb, rfl, h2⟩
        · exact .inl ⟨A - 1 - a + (B - 1 - (b + 1)), by omega, a, b + 1, ha, h1, rfl, h2⟩
        · exact .inr ⟨⟨a, b, ha, hb, hv, h1⟩, h2⟩)
      (Kept c (.range lo hi)) (kept_step c _) (A - 1 + (B - 1))
      (fun m hm => ?_) g T (by omega) hf cfg.maxiter (init c (.range lo hi) true) 0 0
      (Nat.zero_le _) ⟨[], rfl⟩ (Nat.zero_le _)
    · simpa using h
    · exact ⟨0, 0, hA0, by omega, rfl, kept_shrunk hc hU hlo hm⟩

/-- C136: the same for a single value. -/
theorem C136_single_bound_partial (cfg : Cfg) (c : Consts K) (hc : GoodConsts c) (env : ℕ → Env)
    (hb : cfg.bitterEnd = false) (x : K) (hx : c.crit < x) (A : ℕ)
    (hA : x * c.sSingle ^ A ≤ c.crit)
    (g T : ℕ) (hT : A - 1 + (cfg.dwellByGrave + 1) ≤ T) (hf : Fruitless env g T) :
    OverBefore (g + T) cfg.maxiter (run cfg c env (.single x) true) := by
  have hU : Usable (.single x : FVal K) := hc.crit.trans hx
  have hA0 : 0 < A := by
    rcases Nat.eq_zero_or_pos A with rfl | h
    · rw [pow_zero, mul_one] at hA; exact absurd (lt_of_lt_of_le hx hA) (lt_irrefl _)
    · exact h
  apply run_over
  have h := loop_over_from cfg c env hb
    (fun v m => ∃ a, a < A ∧ v = A - 1 - a ∧ ShrunkOne c x a m)
    (fun v m ⟨a, ha, hv, hm⟩ => by
      rcases shrunkOne_down hc hA ha hm with ⟨h1, h2⟩ | ⟨h1, h2⟩
      · exact .inl ⟨A - 1 - (a + 1), by omega, a + 1, h1, rfl, h2⟩
      · exact .inr ⟨⟨a, ha, hv, h1⟩, h2⟩)
    (Kept c (.single x)) (kept_step c _) (A - 1)
    (fun m hm => ⟨0, hA0, rfl, kept_shrunkOne hc hU hx hm⟩) g T (by omega) hf cfg.maxiter
    (init c (.single x) true) 0 0 (Nat.zero_le _) ⟨[], rfl⟩ (Nat.zero_le _)
  simpa using h

end

/-- C136: with the default settings and any population size up to the default maximum of 500, a run is
over 44 generations after the last successful one at the latest. -/
theorem C136_default_bound (cfg : Cfg) (hb : cfg.bitterEnd = false) (hd : cfg.dwellByGrave = 5)
    (hN : 20 ≤ cfg.Np) (hN' : cfg.Np ≤ 500) (env : ℕ → Env) (g : ℕ) (hf : Fruitless env g 44) :
    OverBefore (g + 44) cfg.maxiter
      (run cfg (actual (8 / 10) cfg.Np) env (.range (5 / 10) 1) true) := by
  have hN0 : (20 : ℝ) ≤ cfg.Np := by exact_mod_cast hN
  have hN1 : (cfg.Np : ℝ) ≤ 500 := by exact_mod_cast hN'
  have hpos : (0 : ℝ) < cfg.Np := by linarith
  have hlow : (0.0346 : ℝ) ≤ Real.sqrt ((1 - 0.5 * (8 / 10)) / cfg.Np) := by
    apply Real.le_sqrt_of_sq_le
    rw [le_div_iff₀ hpos]
    nlinarith
  refine C136_range_bound_partial cfg (actual (8 / 10) cfg.Np) (actual_good _ (by norm_num) _ (by omega)) env hb
    (5 / 10) 1 ?_ (by norm_num) 23 17 ?_ ?_ g 44 (by omega) hf
  · show Real.sqrt _ < _
    rw [Real.sqrt_lt' (by norm_num), div_lt_iff₀ hpos]
    nlinarith
  · show (5 / 10 : ℝ) * 0.89 ^ 23 ≤ Real.sqrt _
    refine le_trans ?_ hlow
    norm_num
  · show (1 : ℝ) * 0.87 ^ 17 ≤ 3 * Real.sqrt _
    refine le_trans ?_ (mul_le_mul_of_nonneg_left hlow (by norm_num))
    norm_num

/-- C136: a run that gives up in generation `k` made more than `dwellByGrave` generations, and none of
the last `dwellByGrave + 1` of them was successful. -/
theorem C136_hangs_around (cfg : Cfg) (c : Consts K) (env : ℕ → Env) (F : FVal K) (adaptive : Bool)
    (k : ℕ) (h : (run cfg c env F adaptive).2 = .gaveUp k) :
    cfg.dwellByGrave ≤ k ∧ ∀ i, k - cfg.dwellByGrave ≤ i → i ≤ k → (env i).keep = false := by
  rw [C33_gives_up_iff] at h
  have hs := h.2.2.2.2.2
  set w := (List.range (k + 1)).reverse.takeWhile (fun i => !(env i).keep) with hw
  have h1 : cfg.dwellByGrave < w.length :=
    lt_of_lt_of_le hs (List.length_filter_le _ _)
  have h2 : w.length ≤ k + 1 := by
    have := (List.takeWhile_prefix (fun i => !(env i).keep) (l := (List.range (k + 1)).reverse)).length_le
    simpa [hw] using this
  refine ⟨by omega, fun i hi1 hi2 => ?_⟩
  have hj : k - i < w.length := by omega
  have h3 : w[k - i] = i := by
    have := (List.takeWhile_prefix (fun i => !(env i).keep) (l := (List.range (k + 1)).reverse)).getElem hj
    rw [this]
    simp only [List.getElem_reverse, List.length_range, List.getElem_range]
    omega
  have h4 := List.mem_takeWhile_imp (l := (List.range (k + 1)).reverse) (p := fun i => !(env i).keep)
    (List.getElem_mem hj)
  rw [h3] at h4
  simpa using h4

/-- C136, contrary to the documentation: a range that does not adapt makes an undisturbed run go on to its
maximum however unsuccessful it is. -/
theorem C136_fixed_never_stops (cfg : Cfg) (c : Consts K) (env : ℕ → Env) (F : FVal K) (adaptive : Bool)
    (ha : (init c F adaptive).adaptive = false) (hg : goalSet cfg = false)
    (hu : ∀ i < cfg.maxiter, Undisturbed cfg (env i)) :
    (run cfg c env F adaptive).2 = .maximum := by
  rw [run_outcome]
  have key : ∀ (n kg d : ℕ), kg + n = cfg.maxiter →
      (loop cfg c env n kg (init c F adaptive) d).2 = .maximum := by
    intro n
    induction n with
    | zero => intros; rfl
    | succ n ih =>
      intro kg d h
      have he := (evolve_iff cfg (env kg) kg).2 (hu kg (by omega))
      have h1 : up c (init c F adaptive) = init c F adaptive := by simp [up, ha]
      have h2 : down c (init c F adaptive) = init c F adaptive := by simp [down, ha]
      have h3 : (init c F adaptive).limited = false := by cases F <;> rfl
      simp only [loop, he, hg, h1, h2, h3, Bool.not_true, Bool.false_eq_true, if_false, Bool.and_false]
      split
      · exact ih _ _ (by omega)
      · exact ih _ _ (by omega)
  exact key cfg.maxiter 0 0 (by omega)

/-! ## Examples -/

/-- Non-vacuity: the quiet run is without success from generation 2 on. -/
theorem quiet_fruitless (T : ℕ) : Fruitless quiet 2 T := fun i h _ => by
  simp only [quiet, beq_eq_false_iff_ne]; omega

example := C136_range_bound_partial demoCfg FManager.demo demo_good quiet rfl (12 / 100) (4 / 10)
  (by norm_num [FManager.demo]) (by norm_num) 2 3 (by norm_num [FManager.demo]) (by norm_num [FManager.demo])
  2 5 (by decide) (quiet_fruitless 5)

example := C136_single_bound_partial demoCfg FManager.demo demo_good quiet rfl (12 / 100)
  (by norm_num [FManager.demo]) 2 (by norm_num [FManager.demo]) 2 3 (by decide) (quiet_fruitless 3)

example := C136_default_bound ⟨500, 100, false, 5, false, none⟩ rfl rfl (by decide) (by decide) quiet 2
  (quiet_fruitless 44)

/-- The bound for the single value is attained: the last generation of the quiet run is number 4. -/
example : (run demoCfg FManager.demo quiet (.single (12 / 100)) true).2 = .gaveUp 4 := by
  decide +kernel

example := C136_hangs_around demoCfg FManager.demo quiet (.range (12 / 100) (4 / 10)) true 5 (by decide +kernel)

example := C136_fixed_never_stops demoCfg FManager.demo quiet (.range 0 (4 / 10)) true rfl rfl
  (fun i _ => quiet_undisturbed i)

end RunLoop
end Ade
