import Verif.Model.FManager
import Mathlib.Tactic.Linarith
import Mathlib.Algebra.Order.Archimedean.Basic
import Mathlib.Algebra.Order.Field.Rat
import Mathlib.Analysis.SpecialFunctions.Pow.Real

/-!
# Properties C21, C22, C23: the mutation range

Stated for every ordered field, every initial range and every constants with the properties
`GoodConsts`, which the actual constants have (`actual_good`).
-/

set_option autoImplicit false

namespace Ade
namespace FManager

variable {K : Type} [Field K] [LinearOrder K] [IsStrictOrderedRing K]

/-- What the constants have to satisfy. -/
structure GoodConsts (c : Consts K) : Prop where
  low0 : 0 < c.sLow
  low1 : c.sLow < 1
  high0 : 0 < c.sHigh
  high1 : c.sHigh < 1
  single0 : 0 < c.sSingle
  single1 : c.sSingle < 1
  ratio : 1 ≤ c.ratio
  crit : 0 < c.crit
  upLow : 1 ≤ c.upLow
  upHigh : 1 ≤ c.upHigh
  upSingle : 1 ≤ c.upSingle

/-- The constants of the code (ade/de.py:74-83, 197) for crossover rate `CR` and population size `Np`. -/
noncomputable def actual (CR : ℝ) (Np : ℕ) : Consts ℝ where
  sLow := 0.89
  sHigh := 0.87
  sSingle := 0.89
  ratio := 3
  crit := Real.sqrt ((1 - 0.5 * CR) / Np)
  upLow := (0.89 : ℝ) ^ (-0.88 : ℝ)
  upHigh := (0.87 : ℝ) ^ (-0.88 : ℝ)
  upSingle := (0.89 : ℝ) ^ (-0.88 : ℝ)

/-- The actual constants qualify. -/
theorem actual_good (CR : ℝ) (h1 : CR ≤ 1) (Np : ℕ) (hN : 0 < Np) : GoodConsts (actual CR Np) := by
  have hN' : (0 : ℝ) < Np := by exact_mod_cast hN
  have hup : ∀ x : ℝ, 0 < x → x ≤ 1 → 1 ≤ x ^ (-0.88 : ℝ) := fun x h0 h1 =>
    Real.one_le_rpow_of_pos_of_le_one_of_nonpos h0 h1 (by norm_num)
  constructor <;> simp only [actual]
  · norm_num
  · norm_num
  · norm_num
  · norm_num
  · norm_num
  · norm_num
  · norm_num
  · exact Real.sqrt_pos.2 (div_pos (by linarith) hN')
  · exact hup _ (by norm_num) (by norm_num)
  · exact hup _ (by norm_num) (by norm_num)
  · exact hup _ (by norm_num) (by norm_num)

example := actual_good (8 / 10) (by norm_num) 100 (by decide)

/-- A usable initial setting: a positive number, or a range `0 < lo ≤ hi`. -/
def Usable : FVal K → Prop
  | .range lo hi => 0 < lo ∧ lo ≤ hi
  | .single x => 0 < x

/-- Invariant: the current range against the original one. -/
structure Inv (m : FM K) : Prop where
  pos : 0 < m.F.lowest
  le : m.F.lowest ≤ m.F.highest
  lo : m.F.lowest ≤ m.origLo
  hi : m.F.highest ≤ m.origHi
  orig : m.origLo ≤ m.origHi

omit [IsStrictOrderedRing K] in
/-- A range that is not adaptive never changes. -/
theorem run_not_adaptive (c : Consts K) (ops : List Op) (m : FM K) (hm : m.adaptive = false) :
    run c m ops = m := by
  induction ops generalizing m with
  | nil => rfl
  | cons o os ih =>
    have : step c m o = m := by cases o <;> simp [step, up, down, hm]
    simp only [run, List.foldl_cons, this]
    exact ih m hm

omit [IsStrictOrderedRing K] in
/-- A scale-up of an adaptive range ends the report of a limit. -/
theorem up_limited (c : Consts K) (m : FM K) (ha : m.adaptive = true) :
    (up c m).limited = false := by
  obtain ⟨F, a, ol, oh, l⟩ := m
  cases ha
  cases F <;>
    simp only [up, upLowest, setLowest, setHighest, Bool.not_true, Bool.false_eq_true, if_false] <;>
    split_ifs <;> rfl

omit [IsStrictOrderedRing K] in
/-- Requests do not switch adaptation on or off. -/
theorem run_adaptive (c : Consts K) (ops : List Op) (m : FM K) :
    (run c m ops).adaptive = m.adaptive := by
  induction ops generalizing m with
  | nil => rfl
  | cons o os ih =>
    have : (step c m o).adaptive = m.adaptive := by
      obtain ⟨F, a, ol, oh, l⟩ := m
      cases o <;> cases a <;> cases F <;>
        simp only [step, up, down, upLowest, setLowest, setHighest, Bool.not_true, Bool.not_false,
          Bool.false_eq_true, if_false, if_true] <;>
        split_ifs <;> rfl
    exact (ih _).trans this

omit [IsStrictOrderedRing K] in
theorem inv_init {c : Consts K} {F : FVal K} (h : Usable F) (a : Bool) :
    Inv (init c F a) ∧ (init c F a).F = F ∧ (init c F a).origLo = F.lowest ∧
      (init c F a).origHi = F.highest := by
  cases F with
  | range lo hi =>
    obtain ⟨h1, h2⟩ := h
    have : lo ≠ 0 := h1.ne'
    simp only [init, if_neg this]
    exact ⟨⟨h1, h2, le_rfl, le_rfl, h2⟩, by trivial, rfl, rfl⟩
  | single x => exact ⟨⟨h, le_rfl, le_rfl, le_rfl, le_rfl⟩, rfl, rfl, rfl⟩

/-- What one scale-down does. -/
inductive Down (c : Consts K) (m : FM K) : FM K → Prop where
  | off : m.adaptive = false → Down c m m
  | low (lo hi : K) : m.adaptive = true → m.F = .range lo hi → c.crit < c.sLow * lo →
      Down c m { m with F := .range (c.sLow * lo) hi }
  | one (x : K) : m.adaptive = true → m.F = .single x → c.crit < c.sSingle * x →
      Down c m { m with F := .single (c.sSingle * x) }
  | high (lo hi : K) : m.adaptive = true → m.F = .range lo hi → c.sLow * lo ≤ c.crit →
      c.ratio * lo < c.sHigh * hi → Down c m { m with F := .range lo (c.sHigh * hi) }
  | stuckRange (lo hi : K) : m.adaptive = true → m.F = .range lo hi → c.sLow * lo ≤ c.crit →
      c.sHigh * hi ≤ c.ratio * lo → Down c m { m with limited := true }
  | stuckOne (x : K) : m.adaptive = true → m.F = .single x → c.sSingle * x ≤ c.crit →
      Down c m { m with limited := true }

theorem down_spec {c : Consts K} (hc : GoodConsts c) {m : FM K} (hm : Inv m) : Down c m (down c m) := by
  cases ha : m.adaptive with
  | false => simp only [down, ha]; exact .off ha
  | true =>
    have hpos := hm.pos
    have hle := hm.le
    have hlo := hm.lo
    have hhi := hm.hi
    cases hF : m.F with
    | range lo hi =>
      simp only [hF, FVal.lowest, FVal.highest] at hpos hle hlo hhi
      by_cases h1 : c.sLow * lo > c.crit
      · have : down c m = { m with F := .range (c.sLow * lo) hi } := by
          simp only [down, ha, hF, FVal.lowest, scale0, h1, if_true, setLowest]
          have h2 : ¬ c.sLow * lo > m.origLo := by nlinarith [hc.low1]
          simp [h2]
        rw [this]; exact .low lo hi ha hF h1
      · by_cases h2 : c.sHigh * hi > c.ratio * lo
        · have : down c m = { m with F := .range lo (c.sHigh * hi) } := by
            simp only [down, ha, hF, FVal.lowest, scale0, h1, h2, if_true, if_false, setHighest]
            have h3 : ¬ c.sHigh * hi > m.origHi := by nlinarith [hc.high1]
            simp [h3]
          rw [this]; exact .high lo hi ha hF (not_lt.1 h1) h2
        · have : down c m = { m with limited := true } := by
            simp [down, ha, hF, FVal.lowest, scale0, h1, h2]
          rw [this]; exact .stuckRange lo hi ha hF (not_lt.1 h1) (not_lt.1 h2)
    | single x =>
      simp only [hF, FVal.lowest, FVal.highest] at hpos hle hlo hhi
      by_cases h1 : c.sSingle * x > c.crit
      · have : down c m = { m with F := .single (c.sSingle * x) } := by
          simp only [down, ha, hF, FVal.lowest, scale0, h1, if_true, setLowest]
          have h2 : ¬ c.sSingle * x > m.origLo := by nlinarith [hc.single1]
          simp [h2]
        rw [this]; exact .one x ha hF h1
      · have : down c m = { m with limited := true } := by
          simp [down, ha, hF, FVal.lowest, scale0, h1]
        rw [this]; exact .stuckOne x ha hF (not_lt.1 h1)

theorem down_orig {c : Consts K} (hc : GoodConsts c) {m : FM K} (hm : Inv m) :
    (down c m).origLo = m.origLo ∧ (down c m).origHi = m.origHi ∧
      (down c m).adaptive = m.adaptive := by
  have h := down_spec hc hm
  generalize down c m = m' at h
  cases h <;> exact ⟨rfl, rfl, rfl⟩

theorem inv_down {c : Consts K} (hc : GoodConsts c) {m : FM K} (hm : Inv m) : Inv (down c m) := by
  have h := down_spec hc hm
  have hpos := hm.pos
  have hle := hm.le
  have hlo := hm.lo
  have hhi := hm.hi
  generalize down c m = m' at h
  cases h with
  | off => exact hm
  | low lo hi ha hF h1 =>
    simp only [hF, FVal.lowest, FVal.highest] at hpos hle hlo hhi
    have h3 := hc.low1
    have h4 := hc.low0
    exact ⟨mul_pos h4 hpos, by simp only [FVal.lowest, FVal.highest]; nlinarith,
      by simp only [FVal.lowest]; nlinarith, hhi, hm.orig⟩
  | one x ha hF h1 =>
    simp only [hF, FVal.lowest, FVal.highest] at hpos hle hlo hhi
    have h3 := hc.single1
    have h4 := hc.single0
    exact ⟨mul_pos h4 hpos, le_rfl, by simp only [FVal.lowest]; nlinarith,
      by simp only [FVal.highest]; nlinarith, hm.orig⟩
  | high lo hi ha hF h1 h2 =>
    simp only [hF, FVal.lowest, FVal.highest] at hpos hle hlo hhi
    have h3 := hc.high1
    have h4 := hc.ratio
    exact ⟨hpos, by simp only [FVal.lowest, FVal.highest]; nlinarith, hlo,
      by simp only [FVal.highest]; nlinarith, hm.orig⟩
  | stuckRange => exact ⟨hpos, hle, hlo, hhi, hm.orig⟩
  | stuckOne => exact ⟨hpos, hle, hlo, hhi, hm.orig⟩

theorem inv_upLowest {c : Consts K} (hc : GoodConsts c) {m : FM K} (hm : Inv m)
    (hh : ∀ lo hi, m.F = .range lo hi → ¬ hi < m.origHi) :
    Inv (upLowest c m) ∧ (upLowest c m).origLo = m.origLo ∧ (upLowest c m).origHi = m.origHi ∧
      m.F.lowest ≤ (upLowest c m).F.lowest := by
  have hpos := hm.pos
  have hle := hm.le
  have hlo := hm.lo
  have hhi := hm.hi
  have horig := hm.orig
  unfold upLowest
  simp only
  split
  · rename_i hlt
    have hup : 1 ≤ up0 c m.F := by cases m.F; exacts [hc.upLow, hc.upSingle]
    have hmin : m.F.lowest ≤ min (m.F.lowest * up0 c m.F) m.origLo :=
      le_min (by nlinarith) hlo
    have hmax : min (m.F.lowest * up0 c m.F) m.origLo ≤ m.origLo := min_le_right _ _
    generalize min (m.F.lowest * up0 c m.F) m.origLo = v at hmin hmax
    unfold setLowest
    simp only [if_neg (not_lt.2 hmax)]
    cases hF : m.F with
    | range lo hi =>
      have := hh lo hi hF
      simp only [hF, FVal.lowest, FVal.highest] at *
      exact ⟨⟨lt_of_lt_of_le hpos hmin, by simp only [FVal.lowest, FVal.highest]; linarith, hmax, hhi, horig⟩, by trivial, by trivial, hmin⟩
    | single x =>
      simp only [hF, FVal.lowest, FVal.highest] at *
      exact ⟨⟨lt_of_lt_of_le hpos hmin, le_rfl, hmax, by simp only [FVal.highest]; linarith, horig⟩, by trivial, by trivial, hmin⟩
  · exact ⟨hm, rfl, rfl, le_rfl⟩

theorem inv_up {c : Consts K} (hc : GoodConsts c) {m : FM K} (hm : Inv m) :
    Inv (up c m) ∧ (up c m).origLo = m.origLo ∧ (up c m).origHi = m.origHi ∧
      m.F.lowest ≤ (up c m).F.lowest := by
  unfold up
  split
  · exact ⟨hm, rfl, rfl, le_rfl⟩
  · simp only
    have hpos := hm.pos
    have hle := hm.le
    have hlo := hm.lo
    have hhi := hm.hi
    have horig := hm.orig
    have hm' : Inv { m with limited := false } := ⟨hpos, hle, hlo, hhi, horig⟩
    cases hF : m.F with
    | range lo hi =>
      simp only
      split
      · simp only [hF, FVal.lowest, FVal.highest] at *
        have hmin : hi ≤ min (hi * c.upHigh) m.origHi := le_min (by nlinarith [hc.upHigh]) hhi
        have hmax : min (hi * c.upHigh) m.origHi ≤ m.origHi := min_le_right _ _
        generalize min (hi * c.upHigh) m.origHi = v at hmin hmax
        simp only [setHighest, if_neg (not_lt.2 hmax)]
        exact ⟨⟨hpos, by simp only [FVal.lowest, FVal.highest]; linarith, hlo, hmax, horig⟩, by trivial, by trivial, le_rfl⟩
      · rename_i hnlt
        have := inv_upLowest hc hm' (fun lo' hi' h => by
          simp only [hF] at h; injection h with h1 h2; subst h2; exact hnlt)
        simp only [hF] at this ⊢
        exact this
    | single x =>
      have := inv_upLowest hc hm' (fun lo' hi' h => by simp only [hF] at h; cases h)
      simp only [hF] at this ⊢
      exact this

theorem inv_run {c : Consts K} (hc : GoodConsts c) (ops : List Op) {m : FM K} (hm : Inv m) :
    Inv (run c m ops) ∧ (run c m ops).origLo = m.origLo ∧ (run c m ops).origHi = m.origHi := by
  induction ops generalizing m with
  | nil => exact ⟨hm, rfl, rfl⟩
  | cons o os ih =>
    simp only [run, List.foldl_cons]
    cases o with
    | up =>
      obtain ⟨h1, h2, h3, -⟩ := inv_up hc hm
      obtain ⟨h4, h5, h6⟩ := ih h1
      exact ⟨h4, h5.trans h2, h6.trans h3⟩
    | down =>
      have h1 := inv_down hc hm
      have h2 := down_orig hc hm
      obtain ⟨h4, h5, h6⟩ := ih h1
      exact ⟨h4, h5.trans h2.1, h6.trans h2.2.1⟩

/-! ## C21 -/

/-- C21: through any sequence of requests the range stays a range, within its original limits. -/
theorem C21_range_within_limits (c : Consts K) (hc : GoodConsts c) (F : FVal K) (hF : Usable F)
    (adaptive : Bool) (ops : List Op) :
    let m := run c (init c F adaptive) ops
    0 < m.F.lowest ∧ m.F.lowest ≤ m.F.highest ∧ m.F.lowest ≤ F.lowest ∧ m.F.highest ≤ F.highest := by
  obtain ⟨h1, -, h3, h4⟩ := inv_init (c := c) hF adaptive
  obtain ⟨h5, h6, h7⟩ := inv_run hc ops h1
  exact ⟨h5.pos, h5.le, by rw [← h3, ← h6]; exact h5.lo, by rw [← h4, ← h7]; exact h5.hi⟩

/-- C21: every mutation factor drawn lies in the current range. -/
theorem C21_draws_in_range (c : Consts K) (hc : GoodConsts c) (F : FVal K) (hF : Usable F)
    (adaptive : Bool) (ops : List Op) (u : K) (hu0 : 0 ≤ u) (hu1 : u ≤ 1) :
    let m := run c (init c F adaptive) ops
    m.F.lowest ≤ get m u ∧ get m u ≤ m.F.highest := by
  intro m
  have hle : m.F.lowest ≤ m.F.highest := (C21_range_within_limits c hc F hF adaptive ops).2.1
  unfold get
  cases h : m.F with
  | range lo hi =>
    rw [h] at hle
    simp only [FVal.lowest, FVal.highest] at hle ⊢
    constructor <;> nlinarith
  | single x => exact ⟨le_rfl, le_rfl⟩

omit [IsStrictOrderedRing K] in
/-- C21 for a lower limit given as zero (replaced by the critical value): the range is fixed, and is
a range if the upper limit is not below the critical value. -/
theorem C21_zero_lower_limit (c : Consts K) (hi : K) (adaptive : Bool) (ops : List Op) :
    (run c (init c (.range 0 hi) adaptive) ops).F = .range c.crit hi := by
  rw [run_not_adaptive c ops _ (by simp [init])]
  simp [init]

omit [Field K] [IsStrictOrderedRing K] in
/-- C21: setting a limit sets that limit alone, to the original one if it would be above it; a single value is both. -/
theorem C21_setters (m : FM K) (v : K) :
    (setLowest m v).F.lowest = min v m.origLo ∧ (setHighest m v).F.highest = min v m.origHi ∧
      (∀ lo hi, m.F = .range lo hi → (setLowest m v).F.highest = hi ∧ (setHighest m v).F.lowest = lo) ∧
      (setLowest m v).limited = m.limited ∧ (setHighest m v).limited = m.limited := by
  have key : ∀ o : K, (if v > o then o else v) = min v o := by
    intro o
    by_cases h : o < v
    · rw [if_pos h, min_eq_right h.le]
    · rw [if_neg h, min_eq_left (not_lt.1 h)]
  cases hF : m.F <;>
    simp only [setLowest, setHighest, hF, key, FVal.lowest, FVal.highest, true_and, and_true] <;>
    (intro lo hi h; cases h) <;> exact ⟨rfl, rfl⟩

/-- Example constants over the rationals. -/
def demo : Consts ℚ := ⟨89 / 100, 87 / 100, 89 / 100, 3, 1 / 10, 11 / 10, 11 / 10, 11 / 10⟩

/-- The example constants qualify. -/
theorem demo_good : GoodConsts demo := by constructor <;> norm_num [demo]

example := C21_setters (K := ℚ) (init demo (.range (1 / 2) 1) true) (3 / 4)

example : (setLowest (init demo (.range (1 / 2) 1) true) (3 / 4)).F = .range (1 / 2) 1 ∧
    (setHighest (init demo (.single (1 / 2)) true) (1 / 4)).F = .single (1 / 4) := by decide +kernel

/-- Non-vacuity: the default range after three downs and an up. -/
example : Usable (K := ℚ) (.range (1 / 2) 1) ∧
    (run demo (init demo (.range (1 / 2) 1) true) [.down, .down, .down, .up]).F =
      .range (7754659 / 20000000) 1 := by
  refine ⟨by norm_num [Usable], by decide +kernel⟩

/-! ## C22 -/

/-- `n` scale-downs in a row. -/
def downs (c : Consts K) : ℕ → FM K → FM K
  | 0, m => m
  | n + 1, m => downs c n (down c m)

omit [IsStrictOrderedRing K] in
theorem downs_eq_run (c : Consts K) (n : ℕ) (m : FM K) :
    downs c n m = run c m (List.replicate n .down) := by
  induction n generalizing m with
  | zero => rfl
  | succ n ih => simp only [downs, ih, List.replicate_succ, run, List.foldl_cons, step]

omit [IsStrictOrderedRing K] in
theorem downs_succ (c : Consts K) (n : ℕ) (m : FM K) : downs c (n + 1) m = down c (downs c n m) := by
  induction n generalizing m with
  | zero => rfl
  | succ n ih => rw [downs, ih]; rfl

omit [IsStrictOrderedRing K] in
theorem downs_add (c : Consts K) (n k : ℕ) (m : FM K) : downs c (n + k) m = downs c k (downs c n m) := by
  induction k with
  | zero => rfl
  | succ k ih => rw [downs_succ, ← ih]; exact downs_succ c (n + k) m

theorem inv_downs {c : Consts K} (hc : GoodConsts c) (n : ℕ) {m : FM K} (hm : Inv m) :
    Inv (downs c n m) ∧ (downs c n m).adaptive = m.adaptive := by
  induction n with
  | zero => exact ⟨hm, rfl⟩
  | succ n ih =>
    rw [downs_succ]
    exact ⟨inv_down hc ih.1, (down_orig hc ih.1).2.2.trans ih.2⟩

/-- C22: the lower limit is never moved to or below the critical value. -/
theorem C22_not_below_critical (c : Consts K) (hc : GoodConsts c) (F : FVal K) (hF : Usable F)
    (adaptive : Bool) (ops : List Op) :
    let m := run c (init c F adaptive) ops
    (down c m).F.lowest = m.F.lowest ∨
      (c.crit < (down c m).F.lowest ∧ (down c m).F.lowest < m.F.lowest) := by
  intro m
  have hm : Inv m := (inv_run hc ops (inv_init (c := c) hF adaptive).1).1
  have h := down_spec hc hm
  have hpos := hm.pos
  generalize down c m = m' at h
  cases h with
  | off => exact .inl rfl
  | low lo hi ha hF h1 =>
    rw [hF] at hpos ⊢
    exact .inr ⟨h1, by simp only [FVal.lowest] at *; nlinarith [hc.low1]⟩
  | one x ha hF h1 =>
    rw [hF] at hpos ⊢
    exact .inr ⟨h1, by simp only [FVal.lowest] at *; nlinarith [hc.single1]⟩
  | high lo hi ha hF h1 h2 => rw [hF]; exact .inl rfl
  | stuckRange => exact .inl rfl
  | stuckOne => exact .inl rfl

/-- C22: over any sequence of requests, the lower limit stays above the critical value if it started
above it. -/
theorem C22_stays_above_critical (c : Consts K) (hc : GoodConsts c) (F : FVal K) (hF : Usable F)
    (adaptive : Bool) (hcrit : c.crit < F.lowest) (ops : List Op) :
    c.crit < (run c (init c F adaptive) ops).F.lowest := by
  induction ops using List.reverseRecOn with
  | nil =>
    have := (inv_init (c := c) hF adaptive).2.1
    simp only [run, List.foldl_nil, this]; exact hcrit
  | append_singleton ops o ih =>
    have hrun : run c (init c F adaptive) (ops ++ [o]) = step c (run c (init c F adaptive) ops) o := by
      simp [run]
    rw [hrun]
    cases o with
    | up =>
      have hm := (inv_run hc ops (inv_init (c := c) hF adaptive).1).1
      exact lt_of_lt_of_le ih (inv_up hc hm).2.2.2
    | down =>
      rcases C22_not_below_critical c hc F hF adaptive ops with h | h
      · simp only [step]; rw [h]; exact ih
      · exact h.1

omit [IsStrictOrderedRing K] in
/-- `down` does not read the flag. -/
theorem down_flag (c : Consts K) (m : FM K) :
    down c { m with limited := true } = { down c m with limited := true } := by
  obtain ⟨F, a, ol, oh, l⟩ := m
  cases a <;> cases F <;>
    simp only [down, setLowest, setHighest, Bool.not_true, Bool.not_false,
      Bool.false_eq_true, if_false, if_true] <;>
    split_ifs <;> rfl

omit [IsStrictOrderedRing K] in
/-- Once a scale-down changes nothing but the flag, so do all later ones. -/
theorem stuck_of_unchanged {c : Consts K} {m : FM K} (h : down c m = { m with limited := true })
    (n : ℕ) : downs c (n + 1) m = { m with limited := true } := by
  induction n with
  | zero => exact h
  | succ n ih => rw [downs_succ, ih, down_flag, h]

/-- A scale-down that is not stuck shrinks the product of the limits by a fixed factor, and leaves the
lower limit alone or above the critical value. -/
theorem down_shrinks {c : Consts K} (hc : GoodConsts c) {m : FM K} (hm : Inv m)
    (ha : m.adaptive = true) :
    down c m = { m with limited := true } ∨
      ((down c m).F.lowest * (down c m).F.highest ≤
          max c.sLow (max c.sHigh c.sSingle) * (m.F.lowest * m.F.highest) ∧
        ((down c m).F.lowest = m.F.lowest ∨ c.crit < (down c m).F.lowest)) := by
  have h := down_spec hc hm
  have hpos := hm.pos
  have hle := hm.le
  have hs1 : c.sLow ≤ max c.sLow (max c.sHigh c.sSingle) := le_max_left _ _
  have hs2 : c.sHigh ≤ max c.sLow (max c.sHigh c.sSingle) :=
    le_trans (le_max_left _ _) (le_max_right _ _)
  have hs3 : c.sSingle ≤ max c.sLow (max c.sHigh c.sSingle) :=
    le_trans (le_max_right _ _) (le_max_right _ _)
  generalize max c.sLow (max c.sHigh c.sSingle) = s at hs1 hs2 hs3
  generalize down c m = m' at h
  cases h with
  | off h0 => rw [ha] at h0; cases h0
  | low lo hi _ hF h1 =>
    simp only [hF, FVal.lowest, FVal.highest] at *
    refine .inr ⟨?_, .inr h1⟩
    rw [mul_assoc]
    exact mul_le_mul_of_nonneg_right hs1 (by nlinarith)
  | one x _ hF h1 =>
    simp only [hF, FVal.lowest, FVal.highest] at *
    refine .inr ⟨?_, .inr h1⟩
    have h2 : c.sSingle * x * (c.sSingle * x) ≤ c.sSingle * (x * x) := by
      have : c.sSingle * (c.sSingle * (x * x)) ≤ 1 * (c.sSingle * (x * x)) :=
        mul_le_mul_of_nonneg_right hc.single1.le
          (mul_nonneg hc.single0.le (mul_nonneg hpos.le hpos.le))
      linarith
    exact h2.trans (mul_le_mul_of_nonneg_right hs3 (by nlinarith))
  | high lo hi _ hF h1 h2 =>
    simp only [hF, FVal.lowest, FVal.highest] at *
    refine .inr ⟨?_, .inl (by trivial)⟩
    have : lo * (c.sHigh * hi) = c.sHigh * (lo * hi) := by ring
    rw [this]
    exact mul_le_mul_of_nonneg_right hs2 (by nlinarith)
  | stuckRange => exact .inl rfl
  | stuckOne => exact .inl rfl

/-- C22: consecutive scale-downs of an adaptive range always reach a state in which the limit is
reported, after which further scale-downs leave the range unchanged and the limit reported. -/
theorem C22_reaches_limit [Archimedean K] (c : Consts K) (hc : GoodConsts c) (F : FVal K)
    (hF : Usable F) (ops : List Op) (ha : (init c F true).adaptive = true) :
    ∃ n, ∀ k, (downs c (n + k) (run c (init c F true) ops)).limited = true ∧
      (downs c (n + k) (run c (init c F true) ops)).F = (downs c n (run c (init c F true) ops)).F := by
  have hm : Inv (run c (init c F true) ops) := (inv_run hc ops (inv_init (c := c) hF true).1).1
  have hma : (run c (init c F true) ops).adaptive = true := by
    rw [run_adaptive]; exact ha
  generalize run c (init c F true) ops = m at hm hma
  by_cases hstuck : ∃ n, down c (downs c n m) = { downs c n m with limited := true }
  · obtain ⟨n, hn⟩ := hstuck
    have h1 : ∀ k, downs c (n + 1 + k) m = { downs c n m with limited := true } := by
      intro k
      have := stuck_of_unchanged hn k
      rw [← downs_add] at this
      rw [← this]; congr 1; omega
    refine ⟨n + 1, fun k => ?_⟩
    have h0 := h1 0
    rw [Nat.add_zero] at h0
    rw [h1 k, h0]
    exact ⟨rfl, rfl⟩
  · exfalso
    push Not at hstuck
    set s := max c.sLow (max c.sHigh c.sSingle) with hs
    have hs0 : 0 < s := lt_of_lt_of_le hc.low0 (le_max_left _ _)
    have hs1 : s < 1 := max_lt hc.low1 (max_lt hc.high1 hc.single1)
    set b := min m.F.lowest c.crit with hb
    have hb0 : 0 < b := lt_min hm.pos hc.crit
    have key : ∀ n, (downs c n m).F.lowest * (downs c n m).F.highest ≤
        s ^ n * (m.F.lowest * m.F.highest) ∧ b ≤ (downs c n m).F.lowest := by
      intro n
      induction n with
      | zero => exact ⟨by simp [downs], min_le_left _ _⟩
      | succ n ih =>
        obtain ⟨hi1, hi2⟩ := inv_downs hc n hm
        rcases down_shrinks hc hi1 (hi2.trans hma) with h | ⟨h1, h2⟩
        · exact absurd h (hstuck n)
        · rw [downs_succ]
          constructor
          · refine h1.trans ?_
            rw [pow_succ, mul_comm (s ^ n) s, mul_assoc]
            exact mul_le_mul_of_nonneg_left ih.1 hs0.le
          · rcases h2 with h2 | h2
            · rw [h2]; exact ih.2
            · exact (min_le_right _ _).trans h2.le
    have hP : 0 < m.F.lowest * m.F.highest := mul_pos hm.pos (lt_of_lt_of_le hm.pos hm.le)
    obtain ⟨n, hn⟩ := exists_pow_lt_of_lt_one (div_pos (mul_pos hb0 hb0) hP) hs1
    rw [lt_div_iff₀ hP] at hn
    obtain ⟨k1, k2⟩ := key n
    have k3 := (inv_downs hc n hm).1.le
    have k4 : b * b ≤ (downs c n m).F.lowest * (downs c n m).F.highest :=
      mul_le_mul k2 (k2.trans k3) hb0.le (hb0.le.trans k2)
    linarith

/-- C22: the lower limit, once a limit is reported, cannot be lowered without going to the critical
value, and the upper limit cannot be lowered without going to the multiple of the lower one: the
limit is not reported early. -/
theorem C22_reported_only_at_limit (c : Consts K) (hc : GoodConsts c) (F : FVal K) (hF : Usable F)
    (ops : List Op) (adaptive : Bool)
    (hlim : (run c (init c F adaptive) ops).limited = true) :
    match (run c (init c F adaptive) ops).F with
    | .range lo hi => c.sLow * lo ≤ c.crit ∧ c.sHigh * hi ≤ c.ratio * lo
    | .single x => c.sSingle * x ≤ c.crit := by
  induction ops using List.reverseRecOn with
  | nil => cases F <;> simp [run, init] at hlim
  | append_singleton ops o ih =>
    have hrun : run c (init c F adaptive) (ops ++ [o]) = step c (run c (init c F adaptive) ops) o := by
      simp [run]
    have hm := (inv_run hc ops (inv_init (c := c) hF adaptive).1).1
    rw [hrun] at hlim ⊢
    generalize run c (init c F adaptive) ops = m at *
    cases o with
    | up =>
      simp only [step] at hlim ⊢
      cases ha : m.adaptive with
      | false =>
        have hu : up c m = m := by simp [up, ha]
        rw [hu] at hlim ⊢
        exact ih hlim
      | true =>
        exfalso
        rw [up_limited c m ha] at hlim
        cases hlim
    | down =>
      simp only [step] at hlim ⊢
      have hd := down_spec hc hm
      generalize down c m = m' at hd hlim
      cases hd with
      | off => exact ih hlim
      | low lo hi ha hF h1 =>
        have := ih hlim
        rw [hF] at this
        exact absurd h1 (not_lt.2 this.1)
      | one x ha hF h1 =>
        have := ih hlim
        rw [hF] at this
        exact absurd h1 (not_lt.2 this)
      | high lo hi ha hF h1 h2 =>
        have := ih hlim
        rw [hF] at this
        exact absurd h2 (not_lt.2 this.2)
      | stuckRange lo hi ha hF h1 h2 => simp only [hF]; exact ⟨h1, h2⟩
      | stuckOne x ha hF h1 => simp only [hF]; exact h1

omit [IsStrictOrderedRing K] in
/-- C22: a later scale-up ends the report. -/
theorem C22_up_clears (c : Consts K) (m : FM K) (ha : m.adaptive = true) :
    (up c m).limited = false :=
  up_limited c m ha

/-- Non-vacuity: the range (0.12, 0.4) reaches the limit after two scale-downs, not before. -/
example : GoodConsts demo ∧ Usable (K := ℚ) (.range (12 / 100) (4 / 10)) ∧
    (init demo (.range (12 / 100) (4 / 10)) true).adaptive = true ∧
    (downs demo 1 (init demo (.range (12 / 100) (4 / 10)) true)).limited = false ∧
    (downs demo 3 (init demo (.range (12 / 100) (4 / 10)) true)).limited = true := by
  refine ⟨demo_good, by norm_num [Usable], by decide +kernel, by decide +kernel, by decide +kernel⟩

/-! ## C23 -/

omit [IsStrictOrderedRing K] in
/-- C23: with adaptation off, or a lower limit given as zero, no sequence of requests changes the
range or reports a limit. -/
theorem C23_not_adaptive_fixed (c : Consts K) (F : FVal K) (adaptive : Bool)
    (h : adaptive = false ∨ ∃ hi, F = .range 0 hi) (ops : List Op) :
    (run c (init c F adaptive) ops).F = (init c F adaptive).F ∧
      (run c (init c F adaptive) ops).limited = false := by
  have h0 : (init c F adaptive).adaptive = false ∧ (init c F adaptive).limited = false := by
    rcases h with rfl | ⟨hi, rfl⟩
    · cases F <;> simp [init]
    · simp [init]
  rw [run_not_adaptive c ops _ h0.1]
  exact ⟨rfl, h0.2⟩

/-- C23: with adaptation on, a single factor is adapted like a range is. -/
theorem C23_single_adapts (c : Consts K) (hc : GoodConsts c) (x : K) (hx : c.crit < c.sSingle * x)
    (h0 : 0 < x) : (down c (init c (.single x) true)).F = .single (c.sSingle * x) := by
  have h := down_spec hc (inv_init (c := c) (F := .single x) h0 true).1
  generalize down c (init c (.single x) true) = m' at h
  cases h with
  | off h => cases h
  | low lo hi _ hF _ => cases hF
  | one y _ hF _ => cases hF; rfl
  | high lo hi _ hF _ _ => cases hF
  | stuckRange lo hi _ hF _ _ => cases hF
  | stuckOne y _ hF h1 => cases hF; exact absurd hx (not_lt.2 h1)

/-- Non-vacuity. -/
example : (run demo (init demo (.range (1 / 2) 1) false) [.down, .up, .down]).F = .range (1 / 2) 1 ∧
    (run demo (init demo (.range 0 1) true) [.down, .up, .down]).F = .range (1 / 10) 1 ∧
    demo.crit < demo.sSingle * 1 := by
  refine ⟨by decide +kernel, by decide +kernel, by norm_num [demo]⟩

/-- A usable range. -/
theorem demo_usable : Usable (K := ℚ) (.range (12 / 100) (4 / 10)) := by norm_num [Usable]

example := C21_range_within_limits demo demo_good _ demo_usable true [.down, .down, .up]

example := C21_draws_in_range demo demo_good _ demo_usable true [.down, .down, .up] (1 / 3) (by norm_num) (by norm_num)

example := C22_not_below_critical demo demo_good _ demo_usable true [.down, .down, .up]

example := C22_stays_above_critical demo demo_good _ demo_usable true (by norm_num [demo, FVal.lowest]) [.down, .down, .up]

example := C22_reaches_limit demo demo_good _ demo_usable [.down, .up] (by decide +kernel)

example := C22_reported_only_at_limit demo demo_good _ demo_usable [.down, .down, .down] true (by decide +kernel)

example := C23_not_adaptive_fixed demo (.range 0 1) true (.inr ⟨1, rfl⟩) [.down, .up]

end FManager
end Ade
