import Verif.Props.FManager
import Mathlib.Data.List.Induction

/-!
# Property C137: what the report of a limit means, and how fast the two kinds of setting shrink

The documentation of `FManager` (ade/de.py:52-73) and of its methods `down` and `get`
(ade/de.py:143-172).
-/

set_option autoImplicit false

namespace Ade
namespace FManager

variable {K : Type} [Field K] [LinearOrder K] [IsStrictOrderedRing K]

omit [IsStrictOrderedRing K] in
/-- A range remains a range, and a single value a single value. -/
theorem step_range (c : Consts K) (m : FM K) (o : Op) :
    ((∃ lo hi, m.F = .range lo hi) → ∃ lo hi, (step c m o).F = .range lo hi) ∧
    ((∃ x, m.F = .single x) → ∃ x, (step c m o).F = .single x) := by
  obtain ⟨F, a, ol, oh, l⟩ := m
  cases o <;> cases F <;> cases a <;>
    simp only [step, up, down, upLowest, setLowest, setHighest, Bool.not_true, Bool.not_false,
      Bool.false_eq_true, if_false, if_true] <;>
    constructor <;> rintro h <;> (try split_ifs) <;> simp_all

omit [IsStrictOrderedRing K] in
theorem run_sort (c : Consts K) (m : FM K) (ops : List Op) :
    ((∃ lo hi, m.F = .range lo hi) → ∃ lo hi, (run c m ops).F = .range lo hi) ∧
    ((∃ x, m.F = .single x) → ∃ x, (run c m ops).F = .single x) := by
  induction ops generalizing m with
  | nil => exact ⟨id, id⟩
  | cons o ops ih =>
    exact ⟨fun h => (ih (step c m o)).1 ((step_range c m o).1 h),
      fun h => (ih (step c m o)).2 ((step_range c m o).2 h)⟩

omit [IsStrictOrderedRing K] in
theorem run_range (c : Consts K) (lo hi : K) (a : Bool) (ops : List Op) :
    ∃ lo' hi', (run c (init c (.range lo hi) a) ops).F = .range lo' hi' :=
  (run_sort c _ ops).1 ⟨_, _, rfl⟩

omit [IsStrictOrderedRing K] in
theorem run_single (c : Consts K) (x : K) (a : Bool) (ops : List Op) :
    ∃ y, (run c (init c (.single x) a) ops).F = .single y :=
  (run_sort c _ ops).2 ⟨_, rfl⟩

/-- A range that has been reported limited cannot be reduced. -/
theorem limited_stuck {c : Consts K} (hc : GoodConsts c) {F : FVal K} (hF : Usable F) (adaptive : Bool)
    (ops : List Op) (h : (run c (init c F adaptive) ops).limited = true) :
    down c (run c (init c F adaptive) ops) = run c (init c F adaptive) ops := by
  induction ops using List.reverseRecOn with
  | nil => cases F <;> cases h
  | append_singleton ops o ih =>
    have hrun : run c (init c F adaptive) (ops ++ [o]) = step c (run c (init c F adaptive) ops) o := by
      simp [run]
    have hinv := (inv_run hc ops (inv_init (c := c) hF adaptive).1).1
    rw [hrun] at h ⊢
    generalize run c (init c F adaptive) ops = m at h ih hinv
    cases o with
    | up =>
      simp only [step] at h ⊢
      cases ha : m.adaptive with
      | true => rw [up_limited c m ha] at h; cases h
      | false => have : up c m = m := by simp [up, ha]
                 rw [this]; simp [down, ha]
    | down =>
      simp only [step] at h ⊢
      have hd := down_spec hc hinv
      by_cases hl : m.limited = true
      · rw [ih hl, ih hl]
      · generalize he : down c m = m' at h hd
        cases hd with
        | off ha => exact absurd h hl
        | low => exact absurd h hl
        | one => exact absurd h hl
        | high => exact absurd h hl
        | stuckRange lo hi ha hF' h1 h2 =>
          simp [down, ha, hF', FVal.lowest, scale0, not_lt.2 h1, not_lt.2 h2]
        | stuckOne x ha hF' h1 => simp [down, ha, hF', FVal.lowest, scale0, not_lt.2 h1]

/-- C137: after any sequence of requests to an adaptive range, a further request to scale down ends with
a limit reported exactly if it did not reduce anything; otherwise it reduces one end of the range and
leaves the other alone. -/
theorem C137_limit_means_no_reduction (c : Consts K) (hc : GoodConsts c) (F : FVal K) (hF : Usable F)
    (ops : List Op) :
    let m := run c (init c F true) ops
    let m' := run c (init c F true) (ops ++ [.down])
    (m'.limited = true ↔ m'.F = m.F) ∧
    (m'.limited = false → (m'.F.lowest < m.F.lowest ∧ (m'.F.highest = m.F.highest ∨ ∃ x, F = .single x)) ∨
      (m'.F.lowest = m.F.lowest ∧ m'.F.highest < m.F.highest)) := by
  intro m m'
  have hm' : m' = down c m := by simp [m, m', run, step]
  have hinv : Inv m := (inv_run hc ops (inv_init (c := c) hF true).1).1
  have hst := limited_stuck hc hF true ops
  have hbase : F.lowest ≠ 0 := by cases F; exacts [hF.1.ne', hF.ne']
  have had : m.adaptive = true := by
    show (run c (init c F true) ops).adaptive = true
    rw [run_adaptive]
    cases F
    · simp only [FVal.lowest] at hbase; simp [init, hbase]
    · rfl
  have hkind : (∃ x, m.F = .single x) → ∃ x, F = .single x := by
    cases F with
    | single x => exact fun _ => ⟨x, rfl⟩
    | range lo hi =>
      rintro ⟨x, hx⟩
      obtain ⟨lo', hi', h⟩ := run_range c lo hi true ops
      have h' : m.F = .range lo' hi' := h
      rw [hx] at h'; cases h'
  change m.limited = true → down c m = m at hst
  rw [hm']
  by_cases hl : m.limited = true
  · rw [hst hl]
    exact ⟨⟨fun _ => rfl, fun _ => hl⟩, fun h => by rw [hl] at h; cases h⟩
  · have hd := down_spec hc hinv
    have hpos := hinv.pos
    have hle := hinv.le
    generalize down c m = r at hd
    cases hd with
    | off ha => rw [had] at ha; cases ha
    | low lo hi ha hF' h1 =>
      rw [hF'] at hpos hle
      simp only [FVal.lowest, FVal.highest] at hpos hle
      have h2 : c.sLow * lo < lo := by nlinarith [hc.low1]
      refine ⟨⟨fun h => absurd h hl, fun h => ?_⟩, fun _ => .inl ⟨by rw [hF']; exact h2, .inl (by rw [hF']; rfl)⟩⟩
      rw [hF'] at h; injection h with h3 h4; exact absurd h3 h2.ne
    | one x ha hF' h1 =>
      rw [hF'] at hpos hle
      simp only [FVal.lowest, FVal.highest] at hpos hle
      have h2 : c.sSingle * x < x := by nlinarith [hc.single1]
      refine ⟨⟨fun h => absurd h hl, fun h => ?_⟩, fun _ => .inl ⟨by rw [hF']; exact h2, .inr (hkind ⟨x, hF'⟩)⟩⟩
      rw [hF'] at h; injection h with h3; exact absurd h3 h2.ne
    | high lo hi ha hF' h1 h2 =>
      rw [hF'] at hpos hle
      simp only [FVal.lowest, FVal.highest] at hpos hle
      have h3 : c.sHigh * hi < hi := by nlinarith [hc.high1]
      refine ⟨⟨fun h => absurd h hl, fun h => ?_⟩, fun _ => .inr ⟨by rw [hF']; rfl, by rw [hF']; exact h3⟩⟩
      rw [hF'] at h; injection h with h4 h5; exact absurd h5 h3.ne
    | stuckRange => exact ⟨⟨fun _ => rfl, fun _ => rfl⟩, fun h => by cases h⟩
    | stuckOne => exact ⟨⟨fun _ => rfl, fun _ => rfl⟩, fun h => by cases h⟩

/-- C137, contrary to the documentation of the class: scaled down any number of times from the same
start, a single value is at every moment the same as the lower end of a range. -/
theorem C137_same_speed (CR : ℝ) (hCR : CR ≤ 1) (Np : ℕ) (hN : 0 < Np) (x hi : ℝ) (hx : 0 < x) (hle : x ≤ hi)
    (n : ℕ) :
    let ops := List.replicate n Op.down
    (run (actual CR Np) (init (actual CR Np) (.single x) true) ops).F.lowest =
      (run (actual CR Np) (init (actual CR Np) (.range x hi) true) ops).F.lowest := by
  intro ops
  have hc := actual_good CR hCR Np hN
  have hs : (actual CR Np).sSingle = (actual CR Np).sLow := rfl
  generalize actual CR Np = c at hc hs
  have hR : Usable (.range x hi) := ⟨hx, hle⟩
  have hS : Usable (.single x) := hx
  show _ = _
  have hops : ops = List.replicate n Op.down := rfl
  clear_value ops
  subst hops
  induction n with
  | zero => simp [run, init, hx.ne', FVal.lowest]
  | succ n ih =>
    have hrun : ∀ F, run c (init c F true) (List.replicate (n + 1) .down) =
        down c (run c (init c F true) (List.replicate n .down)) := by
      intro F; simp [run, List.replicate_succ', step]
    rw [hrun, hrun]
    have i1 := (inv_run hc (List.replicate n .down) (inv_init (c := c) hS true).1).1
    have i2 := (inv_run hc (List.replicate n .down) (inv_init (c := c) hR true).1).1
    have a1 : (run c (init c (.single x) true) (List.replicate n .down)).adaptive = true := by
      rw [run_adaptive]; rfl
    have a2 : (run c (init c (.range x hi) true) (List.replicate n .down)).adaptive = true := by
      rw [run_adaptive]; simp [init, hx.ne']
    obtain ⟨y, k1⟩ := run_single c x true (List.replicate n .down)
    obtain ⟨lo', hi', k2⟩ := run_range c x hi true (List.replicate n .down)
    generalize run c (init c (.single x) true) (List.replicate n .down) = m1 at *
    generalize run c (init c (.range x hi) true) (List.replicate n .down) = m2 at *
    have d1 := down_spec hc i1
    have d2 := down_spec hc i2
    rw [k1, k2] at ih
    simp only [FVal.lowest] at ih
    subst ih
    generalize down c m1 = r1 at d1
    generalize down c m2 = r2 at d2
    cases d1 with
    | off h => rw [a1] at h; cases h
    | low _ _ _ h => rw [k1] at h; cases h
    | high _ _ _ h => rw [k1] at h; cases h
    | stuckRange _ _ _ h => rw [k1] at h; cases h
    | one z _ h h1 =>
      rw [k1] at h; injection h with h; subst h
      cases d2 with
      | off h => rw [a2] at h; cases h
      | one _ _ h => rw [k2] at h; cases h
      | stuckOne _ _ h => rw [k2] at h; cases h
      | low lo hi' _ h h2 => rw [k2] at h; injection h with h h'; subst h; rw [hs]; rfl
      | high lo hi' _ h h2 =>
        rw [k2] at h; injection h with h h'; subst h
        rw [hs] at h1; exact absurd h2 (not_le.2 h1)
      | stuckRange lo hi' _ h h2 =>
        rw [k2] at h; injection h with h h'; subst h
        rw [hs] at h1; exact absurd h2 (not_le.2 h1)
    | stuckOne z _ h h1 =>
      rw [k1] at h; injection h with h; subst h
      cases d2 with
      | off h => rw [a2] at h; cases h
      | one _ _ h => rw [k2] at h; cases h
      | stuckOne _ _ h => rw [k2] at h; cases h
      | low lo hi' _ h h2 =>
        rw [k2] at h; injection h with h h'; subst h
        rw [hs] at h1; exact absurd h2 (not_lt.2 h1)
      | high lo hi' _ h h2 =>
        rw [k2] at h; injection h with h h'; subst h
        simp only [k1, FVal.lowest]
      | stuckRange lo hi' _ h h2 => simp only [k1, k2, FVal.lowest]

omit [IsStrictOrderedRing K] in
/-- C137, contrary to the documentation of `get`: without adaptation no limit is ever reported, so nothing
is determined behind the scenes. -/
theorem C137_fixed_no_limit (c : Consts K) (F : FVal K) (adaptive : Bool)
    (h : adaptive = false ∨ ∃ hi, F = .range 0 hi) (ops : List Op) :
    run c (init c F adaptive) ops = init c F adaptive ∧
      (run c (init c F adaptive) ops).limited = false := by
  have ha : (init c F adaptive).adaptive = false := by
    rcases h with rfl | ⟨hi, rfl⟩
    · cases F <;> simp [init]
    · simp [init]
  rw [run_not_adaptive c ops _ ha]
  exact ⟨rfl, by cases F <;> rfl⟩

/-! ## Examples -/

example := C137_limit_means_no_reduction demo demo_good (.range (1 / 2) 1) (by norm_num [Usable]) [.down, .up]
example := C137_same_speed (8 / 10) (by norm_num) 100 (by decide) (1 / 2) 1 (by norm_num) (by norm_num) 3
example := C137_fixed_no_limit demo (.range 0 1) true (.inr ⟨1, rfl⟩) [.down, .up]

/-- Both outcomes occur. -/
example : (run demo (init demo (.range (1 / 2) 1) true) [.down]).limited = false ∧
    (run demo (init demo (.range (1 / 10) (3 / 10)) true) [.down]).limited = true := by
  decide +kernel

end FManager
end Ade
