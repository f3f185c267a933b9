import Verif.Model.WideBounds
import Verif.Props.RelationsRounded
import Verif.Props.SamplerRounded

/-!
# C163: wide and infinite bounds
-/

set_option autoImplicit false

namespace Ade
namespace WideBounds

open PyFloat Rounding FRounded
open RatioRounded (RoundsToNearest fl_self)
open SamplerRounded (repr_scale)

/-! ## Specification -/

/-- A finite number between two others. -/
def Inside (l h : ℚ) (v : PyFloat) : Prop := ∃ x, v = fin x ∧ l ≤ x ∧ x ≤ h

/-- Limiting without overflow. -/
def plainLimit (fl : ℚ → ℚ) (l h x : ℚ) : ℚ :=
  let x1 := if x < l then fl (2 * l - x) else x
  let x2 := if h < x1 then fl (2 * h - x1) else x1
  max l (min h x2)

/-- The members' values and the challengers' values without overflow. -/
def plain (fl : ℚ → ℚ) (l h : ℚ) : List ℚ → List Move → List ℚ
  | _, [] => []
  | pop, m :: ms =>
    match pop[m.kt]?, pop[m.kb]?, pop[m.k0]?, pop[m.k1]? with
    | some t, some b, some v0, some v1 =>
      let c := plainLimit fl l h (if m.take then fl (b + fl (fl (v0 - v1) * m.F)) else t)
      c :: plain fl l h (if m.win then pop.set m.kt c else pop) ms
    | _, _, _, _ => plain fl l h pop ms

/-! ## A set of values that is never left -/

theorem run_closed (A : Machine) (lo hi : PyFloat) (S : PyFloat → Prop)
    (hc : ∀ t b v0 v1 F take, S t → S b → S v0 → S v1 → S (challenger A lo hi t b v0 v1 F take))
    (pop : List PyFloat) (hp : ∀ v ∈ pop, S v) (ms : List Move) : ∀ v ∈ challengers A lo hi pop ms, S v := by
  induction ms generalizing pop with
  | nil => intro v hv; simp [challengers] at hv
  | cons m ms ih =>
    have key : (∀ v ∈ (step A lo hi pop m).1, S v) ∧ ∀ v ∈ (step A lo hi pop m).2, S v := by
      unfold step
      split
      · rename_i t b v0 v1 h1 h2 h3 h4
        have hS := hc t b v0 v1 m.F m.take (hp _ (List.mem_of_getElem? h1)) (hp _ (List.mem_of_getElem? h2))
          (hp _ (List.mem_of_getElem? h3)) (hp _ (List.mem_of_getElem? h4))
        constructor
        · dsimp only
          split_ifs
          · intro v hv
            rcases List.mem_or_eq_of_mem_set hv with h | rfl
            · exact hp v h
            · exact hS
          · exact hp
        · intro v hv
          simp only [Option.mem_def, Option.some.injEq] at hv
          subst hv; exact hS
      · exact ⟨hp, by simp⟩
    intro v hv
    unfold challengers at hv
    rw [List.mem_append] at hv
    rcases hv with hv | hv
    · exact key.2 v (by simpa using hv)
    · exact ih _ key.1 v hv

theorem evaluated_closed (A : Machine) (lo hi : PyFloat) (S : PyFloat → Prop) (us : List ℚ)
    (hs : ∀ u ∈ us, S (first A lo hi (fin u)))
    (hc : ∀ t b v0 v1 F take, S t → S b → S v0 → S v1 → S (challenger A lo hi t b v0 v1 F take))
    (ms : List Move) : ∀ v ∈ evaluated A lo hi us ms, S v := by
  have hp : ∀ v ∈ us.map fun u => first A lo hi (fin u), S v := by
    intro v hv
    obtain ⟨u, hu, rfl⟩ := List.mem_map.1 hv
    exact hs u hu
  intro v hv
  unfold evaluated at hv
  rcases List.mem_append.1 hv with h | h
  · exact hp v h
  · exact run_closed A lo hi S hc _ hp ms v h

theorem clip_nan (lo hi : PyFloat) : clip lo hi nan = nan := by
  have h1 : lt nan lo = false := by cases lo <;> rfl
  have h2 : lt hi nan = false := by cases hi <;> rfl
  simp [clip, h1, h2]

theorem clip_ninf {l h : ℚ} (hlh : l ≤ h) : clip (fin l) (fin h) ninf = fin l := by
  simp [clip, lt, not_lt.2 hlh]

theorem clip_fin {l h : ℚ} (hlh : l ≤ h) (x : ℚ) : clip (fin l) (fin h) (fin x) = fin (max l (min h x)) := by
  unfold clip
  simp only [lt, decide_eq_true_eq]
  split_ifs with c1 c2 c2
  · simp only [decide_eq_true_eq] at c2; linarith
  · rw [min_eq_right (by linarith), max_eq_left c1.le]
  · simp only [decide_eq_true_eq] at c2
    rw [min_eq_left c2.le, max_eq_right hlh]
  · simp only [decide_eq_true_eq] at c2
    rw [min_eq_right (not_lt.1 c2), max_eq_right (not_lt.1 c1)]

theorem limit_nan (A : Machine) (lo hi : PyFloat) : limit A lo hi nan = nan := by
  unfold limit
  have h1 : lt nan lo = false := by cases lo <;> rfl
  have h2 : lt hi nan = false := by cases hi <;> rfl
  simp [h1, h2, clip_nan]

/-! ## C163 -/

/-- C163 is false for infinite bounds: with a bound that is infinite, no value of the parameter that is ever proposed for
evaluation is a number; all are infinite or NaN. -/
theorem C163_infinite (A : Machine) (lo hi : PyFloat) (h : hi = pinf ∨ lo = ninf) (us : List ℚ) (hu : ∀ u ∈ us, 0 ≤ u)
    (ms : List Move) : ∀ v ∈ evaluated A lo hi us ms, v.isFinite = false := by
  have key : ∀ v ∈ evaluated A lo hi us ms, v = nan ∨ (v = pinf ∧ hi = pinf) := by
    refine evaluated_closed A lo hi _ us ?_ ?_ ms
    · intro u hu'
      have hu0 := hu u hu'
      have hfu : fromUnity A lo hi (fin u) = nan ∨ (fromUnity A lo hi (fin u) = pinf ∧ hi = pinf) := by
        rcases lt_or_eq_of_le hu0 with h0 | h0
        · rcases h with rfl | rfl
          · cases lo <;> simp [fromUnity, sub, neg, add, mul, infTimes, h0]
          · cases hi <;> simp [fromUnity, sub, neg, add, mul, infTimes, h0]
        · subst h0
          left
          rcases h with rfl | rfl
          · cases lo <;> simp [fromUnity, sub, neg, add, mul, infTimes]
          · cases hi <;> simp [fromUnity, sub, neg, add, mul, infTimes]
      unfold first
      rcases hfu with h1 | ⟨h1, h2⟩
      · left; rw [h1, limit_nan]
      · rw [h1, h2]
        cases lo <;> simp [limit, lt, clip]
    · intro t b v0 v1 F take ht hb h0 h1
      unfold challenger
      cases take with
      | true =>
        left
        have : sub A v0 v1 = nan := by
          rcases h0 with rfl | ⟨rfl, _⟩ <;> rcases h1 with rfl | ⟨rfl, _⟩ <;> rfl
        rw [if_pos rfl, this]
        have : mul A nan (fin F) = nan := rfl
        rw [this]
        have : add A b nan = nan := by cases b <;> rfl
        rw [this, limit_nan]
      | false =>
        rw [if_neg (by simp)]
        rcases ht with rfl | ⟨rfl, h2⟩
        · left; exact limit_nan A lo hi
        · rw [h2]
          cases lo <;> simp [limit, lt, clip]
  intro v hv
  rcases key v hv with rfl | ⟨rfl, _⟩ <;> rfl

section
variable {A : Machine} (hfl : RoundsToNearest A.fl)
include hfl

theorem mk_self {x : ℚ} (hr : Repr 53 x) (h : |x| < A.top) : mk A x = fin x := by
  obtain ⟨h1, h2⟩ := abs_lt.1 h
  unfold mk
  rw [fl_self hfl hr, if_neg (by linarith), if_neg (by linarith)]

theorem mk_fin {x : ℚ} (h : 2 * |x| < A.top) : mk A x = fin (A.fl x) := by
  have e := RelationsRounded.rounding_error_abs hfl x
  have e2 : |x| / 2 ^ 53 ≤ |x| := div_le_self (abs_nonneg _) (by norm_num)
  have e3 : |A.fl x| ≤ 2 * |x| := by
    have := abs_add_le (A.fl x - x) x
    rw [sub_add_cancel] at this
    linarith
  obtain ⟨h1, h2⟩ := abs_lt.1 (lt_of_le_of_lt e3 h)
  unfold mk
  rw [if_neg (by linarith), if_neg (by linarith)]

/-- C163 is false for bounds too far apart: if the difference of the bounds is too large for a float, every value ever proposed
is the lower bound or NaN. -/
theorem C163_too_far_apart (l h : ℚ) (hrl : Repr 53 l) (hl : |l| < A.top) (hfar : A.top ≤ A.fl (h - l))
    (us : List ℚ) (hu : ∀ u ∈ us, 0 ≤ u) (ms : List Move) :
    ∀ v ∈ evaluated A (fin l) (fin h) us ms, v = fin l ∨ v = nan := by
  have htop : 0 < A.top := lt_of_le_of_lt (abs_nonneg _) hl
  have hlh : l < h := by
    by_contra hc
    have : A.fl (h - l) ≤ 0 := Rounding.nearest_le (hfl _) (repr_zero _) (by linarith)
    linarith
  have hscale : sub A (fin h) (fin l) = pinf := by
    have : sub A (fin h) (fin l) = mk A (h + -l) := rfl
    rw [this, ← sub_eq_add_neg]
    unfold mk
    rw [if_pos hfar]
  have hlim : limit A (fin l) (fin h) (fin l) = fin l := by
    unfold limit
    simp [lt, clip, hlh.not_gt]
  refine evaluated_closed A _ _ _ us ?_ ?_ ms
  · intro u hu'
    unfold first fromUnity
    rw [hscale]
    rcases lt_or_eq_of_le (hu u hu') with h0 | h0
    · have h1 : mul A pinf (fin u) = pinf := by simp [mul, infTimes, h0]
      have h2 : add A (fin l) pinf = pinf := rfl
      rw [h1, h2]
      unfold limit
      have h3 : lt pinf (fin l) = false := rfl
      have h4 : lt (fin h) pinf = true := rfl
      simp only [h3, h4, Bool.false_eq_true, if_false, if_true]
      cases hm : mul A (fin 2) (fin h) with
      | nan => right; simp [sub, add, clip_nan]
      | pinf => right; simp [sub, add, neg, clip_nan]
      | ninf => left; simp [sub, add, neg, clip_ninf hlh.le]
      | fin y => left; simp [sub, add, neg, clip_ninf hlh.le]
    · right
      have h1 : mul A pinf (fin u) = nan := by simp [mul, infTimes, ← h0]
      have h2 : add A (fin l) nan = nan := rfl
      rw [h1, h2, limit_nan]
  · intro t b v0 v1 F take ht hb h0 h1
    unfold challenger
    cases take with
    | true =>
      rw [if_pos rfl]
      have z : mk A 0 = fin 0 := mk_self hfl (repr_zero _) (by rw [abs_zero]; exact htop)
      have hd : sub A v0 v1 = fin 0 ∨ sub A v0 v1 = nan := by
        rcases h0 with rfl | rfl
        · rcases h1 with rfl | rfl
          · left
            have : sub A (fin l) (fin l) = mk A (l + -l) := rfl
            rw [this, add_neg_cancel, z]
          · right; rfl
        · right; rfl
      have hm : mul A (sub A v0 v1) (fin F) = fin 0 ∨ mul A (sub A v0 v1) (fin F) = nan := by
        rcases hd with h | h
        · left
          rw [h]
          have : mul A (fin 0) (fin F) = mk A (0 * F) := rfl
          rw [this, zero_mul, z]
        · right; rw [h]; rfl
      have ha : add A b (mul A (sub A v0 v1) (fin F)) = fin l ∨ add A b (mul A (sub A v0 v1) (fin F)) = nan := by
        rcases hb with rfl | rfl
        · rcases hm with h | h
          · left
            rw [h]
            have : add A (fin l) (fin 0) = mk A (l + 0) := rfl
            rw [this, add_zero, mk_self hfl hrl hl]
          · right; rw [h]; rfl
        · right; rfl
      rcases ha with h | h
      · left; rw [h, hlim]
      · right; rw [h, limit_nan]
    | false =>
      rw [if_neg (by simp)]
      rcases ht with rfl | rfl
      · left; exact hlim
      · right; exact limit_nan A _ _

/-- C163: with bounds less than half the largest number, limiting gives a number within the bounds for everything but NaN. -/
theorem C163_limit (l h : ℚ) (hrl : Repr 53 l) (hrh : Repr 53 h) (hl : 2 * |l| < A.top) (hh : 2 * |h| < A.top) (hlh : l ≤ h)
    (v : PyFloat) (hv : v ≠ nan) : Inside l h (limit A (fin l) (fin h) v) := by
  have two : ∀ {x : ℚ}, Repr 53 x → 2 * |x| < A.top → mul A (fin 2) (fin x) = fin (2 * x) := by
    intro x hr hx
    have : mul A (fin 2) (fin x) = mk A (2 * x) := rfl
    rw [this]
    refine mk_self hfl ?_ (by rw [abs_mul, abs_two]; exact hx)
    have := repr_scale hr 1
    rwa [zpow_one, mul_comm] at this
  have mkn : ∀ x, mk A x ≠ nan := by
    intro x; unfold mk; split_ifs <;> simp
  have h1 : (if v.lt (fin l) then sub A (mul A (fin 2) (fin l)) v else v) ≠ nan := by
    rw [two hrl hl]
    split_ifs with c
    · cases v with
      | nan => exact absurd rfl hv
      | ninf => simp [sub, neg, add]
      | pinf => simp [sub, neg, add]
      | fin x => exact mkn _
    · exact hv
  unfold limit
  dsimp only
  generalize (if v.lt (fin l) then sub A (mul A (fin 2) (fin l)) v else v) = v1 at h1
  have h2 : (if (fin h).lt v1 then sub A (mul A (fin 2) (fin h)) v1 else v1) ≠ nan := by
    rw [two hrh hh]
    split_ifs with c
    · cases v1 with
      | nan => exact absurd rfl h1
      | ninf => simp [sub, neg, add]
      | pinf => simp [sub, neg, add]
      | fin x => exact mkn _
    · exact h1
  generalize (if (fin h).lt v1 then sub A (mul A (fin 2) (fin h)) v1 else v1) = v2 at h2
  cases v2 with
  | nan => exact absurd rfl h2
  | ninf => exact ⟨l, clip_ninf hlh, le_rfl, hlh⟩
  | pinf => exact ⟨h, by simp [clip, lt], hlh, le_rfl⟩
  | fin x => exact ⟨_, clip_fin hlh x, le_max_left _ _, max_le hlh (min_le_left _ _)⟩

/-- C163: an infinite upper bound leaves only the lower bound to be respected. -/
theorem C163_limit_one_sided (l : ℚ) (hrl : Repr 53 l) (hl : 2 * |l| < A.top) (v : PyFloat) (hv : v ≠ nan) :
    le (fin l) (limit A (fin l) pinf v) = true ∧ (le (fin l) v = true → limit A (fin l) pinf v = v) := by
  have h2l : mul A (fin 2) (fin l) = fin (2 * l) := by
    have : mul A (fin 2) (fin l) = mk A (2 * l) := rfl
    rw [this]
    refine mk_self hfl ?_ (by rw [abs_mul, abs_two]; exact hl)
    have := repr_scale hrl 1
    rwa [zpow_one, mul_comm] at this
  have stay : ∀ w : PyFloat, le (fin l) w = true → limit A (fin l) pinf w = w := by
    intro w hw
    cases w with
    | nan => simp [le, lt, PyFloat.eq] at hw
    | ninf => simp [le, lt, PyFloat.eq] at hw
    | pinf => simp [limit, lt, clip]
    | fin x =>
      have : l ≤ x := by
        simp only [le, lt, PyFloat.eq, Bool.or_eq_true, decide_eq_true_eq] at hw
        rcases hw with h | h <;> linarith
      simp [limit, lt, clip, not_lt.2 this]
  refine ⟨?_, stay v⟩
  by_cases hc : le (fin l) v = true
  · rw [stay v hc]; exact hc
  · cases v with
    | nan => exact absurd rfl hv
    | pinf => simp [le, lt] at hc
    | ninf =>
      unfold limit
      rw [h2l]
      simp [lt, sub, neg, add, clip, le]
    | fin x =>
      have hx : x < l := by
        by_contra h
        apply hc
        simp only [le, lt, PyFloat.eq, Bool.or_eq_true, decide_eq_true_eq]
        exact lt_or_eq_of_le (not_lt.1 h)
      have e : sub A (fin (2 * l)) (fin x) = mk A (2 * l - x) := by rw [sub_eq_add_neg]; rfl
      have hge : l ≤ A.fl (2 * l - x) := Rounding.le_nearest (hfl _) hrl (by linarith)
      have htop : -A.top < l := by
        have := neg_abs_le l
        have := abs_nonneg l
        linarith
      have hw : le (fin l) (mk A (2 * l - x)) = true := by
        unfold mk
        split_ifs with a b
        · rfl
        · linarith
        · simp only [le, lt, PyFloat.eq, Bool.or_eq_true, decide_eq_true_eq]
          exact lt_or_eq_of_le hge
      have hlt : lt (fin x) (fin l) = true := by simp [lt, hx]
      have first : limit A (fin l) pinf (fin x) = mk A (2 * l - x) := by
        have s2 := stay _ hw
        unfold limit at s2 ⊢
        rw [h2l] at s2 ⊢
        simp only [hlt, if_true, e]
        generalize mk A (2 * l - x) = w at *
        have hn : lt w (fin l) = false := by
          cases w with
          | nan => rfl
          | ninf => simp [le, lt, PyFloat.eq] at hw
          | pinf => rfl
          | fin y =>
            simp only [le, lt, PyFloat.eq, Bool.or_eq_true, decide_eq_true_eq] at hw
            simp only [lt, decide_eq_false_iff_not, not_lt]
            rcases hw with h | h <;> linarith
        simpa only [hn, Bool.false_eq_true, if_false] using s2
      rw [first]
      exact hw

/-- C163 is false for bounds near the largest number: if twice the lower bound is too large for a float, a value below
the lower bound is limited to NaN. -/
theorem C163_limit_too_large (l h x : ℚ) (hl : A.top ≤ 2 * l) (hlh : l ≤ h) (hx : x < l) (hrt : Repr 53 A.top) :
    limit A (fin l) (fin h) (fin x) = nan := by
  have big : ∀ y : ℚ, A.top ≤ 2 * y → mul A (fin 2) (fin y) = pinf := by
    intro y hy
    have : mul A (fin 2) (fin y) = mk A (2 * y) := rfl
    rw [this]
    unfold mk
    rw [if_pos (Rounding.le_nearest (hfl _) hrt hy)]
  unfold limit
  rw [big l hl, big h (by linarith)]
  simp [lt, hx, sub, neg, add, clip_nan]

theorem fl_le (x : ℚ) : |A.fl x| ≤ 2 * |x| := by
  have e := RelationsRounded.rounding_error_abs hfl x
  have e2 : |x| / 2 ^ 53 ≤ |x| := div_le_self (abs_nonneg _) (by norm_num)
  have := abs_add_le (A.fl x - x) x
  rw [sub_add_cancel] at this
  linarith

theorem limit_plain {l h B x : ℚ} (hrl : Repr 53 l) (hrh : Repr 53 h) (hl : |l| ≤ B) (hh : |h| ≤ B) (hB : 200 * B < A.top)
    (hlh : l ≤ h) (hx : |x| ≤ 40 * B) :
    limit A (fin l) (fin h) (fin x) = fin (plainLimit A.fl l h x) ∧ l ≤ plainLimit A.fl l h x ∧ plainLimit A.fl l h x ≤ h := by
  have hB0 : 0 ≤ B := (abs_nonneg _).trans hl
  have two : ∀ {x : ℚ}, Repr 53 x → |x| ≤ B → mul A (fin 2) (fin x) = fin (2 * x) := by
    intro x hr hx
    have : mul A (fin 2) (fin x) = mk A (2 * x) := rfl
    rw [this]
    refine mk_self hfl ?_ (by rw [abs_mul, abs_two]; linarith)
    have := repr_scale hr 1
    rwa [zpow_one, mul_comm] at this
  have dif : ∀ a b : ℚ, 2 * |a - b| < A.top → sub A (fin a) (fin b) = fin (A.fl (a - b)) := by
    intro a b hab
    have : sub A (fin a) (fin b) = mk A (a - b) := by rw [sub_eq_add_neg]; rfl
    rw [this, mk_fin hfl hab]
  refine ⟨?_, le_max_left _ _, max_le hlh (min_le_left _ _)⟩
  have a1 : |2 * l - x| ≤ 42 * B := by
    have := abs_sub (2 * l) x
    rw [abs_mul, abs_two] at this
    linarith
  have e1 : (if (fin x).lt (fin l) then sub A (mul A (fin 2) (fin l)) (fin x) else fin x) =
      fin (if x < l then A.fl (2 * l - x) else x) := by
    rw [two hrl hl, dif _ _ (by linarith)]
    simp only [lt, decide_eq_true_eq]
    split_ifs <;> rfl
  have hx1 : |if x < l then A.fl (2 * l - x) else x| ≤ 84 * B := by
    split_ifs
    · have := fl_le hfl (2 * l - x)
      linarith
    · linarith
  unfold limit plainLimit
  dsimp only
  rw [e1]
  generalize (if x < l then A.fl (2 * l - x) else x) = x1 at *
  have a2 : |2 * h - x1| ≤ 86 * B := by
    have := abs_sub (2 * h) x1
    rw [abs_mul, abs_two] at this
    linarith
  have e2 : (if (fin h).lt (fin x1) then sub A (mul A (fin 2) (fin h)) (fin x1) else fin x1) =
      fin (if h < x1 then A.fl (2 * h - x1) else x1) := by
    rw [two hrh hh, dif _ _ (by linarith)]
    simp only [lt, decide_eq_true_eq]
    split_ifs <;> rfl
  rw [e2]
  generalize (if h < x1 then A.fl (2 * h - x1) else x1) = x2
  exact clip_fin hlh x2

/-- The values of the members at first, without overflow. -/
theorem first_plain {l h B u : ℚ} (hrl : Repr 53 l) (hrh : Repr 53 h) (hl : |l| ≤ B) (hh : |h| ≤ B) (hB : 200 * B < A.top)
    (hlh : l ≤ h) (h0 : 0 ≤ u) (h1 : u ≤ 1) :
    first A (fin l) (fin h) (fin u) = fin (plainLimit A.fl l h (A.fl (l + A.fl (A.fl (h - l) * u)))) ∧
      l ≤ plainLimit A.fl l h (A.fl (l + A.fl (A.fl (h - l) * u))) ∧ plainLimit A.fl l h (A.fl (l + A.fl (A.fl (h - l) * u))) ≤ h := by
  have hB0 : 0 ≤ B := (abs_nonneg _).trans hl
  have a1 : |h - l| ≤ 2 * B := (abs_sub h l).trans (by linarith)
  have a2 := fl_le hfl (h - l)
  have e1 : sub A (fin h) (fin l) = fin (A.fl (h - l)) := by
    have : sub A (fin h) (fin l) = mk A (h - l) := by rw [sub_eq_add_neg]; rfl
    rw [this, mk_fin hfl (by linarith)]
  have a3 : |A.fl (h - l) * u| ≤ 4 * B := by
    rw [abs_mul, abs_of_nonneg h0]
    exact (mul_le_of_le_one_right (abs_nonneg _) h1).trans (by linarith)
  have a4 := fl_le hfl (A.fl (h - l) * u)
  have e2 : mul A (fin (A.fl (h - l))) (fin u) = fin (A.fl (A.fl (h - l) * u)) := by
    have : mul A (fin (A.fl (h - l))) (fin u) = mk A (A.fl (h - l) * u) := rfl
    rw [this, mk_fin hfl (by linarith)]
  have a5 := abs_add_le l (A.fl (A.fl (h - l) * u))
  have a6 := fl_le hfl (l + A.fl (A.fl (h - l) * u))
  have e3 : add A (fin l) (fin (A.fl (A.fl (h - l) * u))) = fin (A.fl (l + A.fl (A.fl (h - l) * u))) := by
    have : add A (fin l) (fin (A.fl (A.fl (h - l) * u))) = mk A (l + A.fl (A.fl (h - l) * u)) := rfl
    rw [this, mk_fin hfl (by linarith)]
  unfold first fromUnity
  rw [e1, e2, e3]
  exact limit_plain hfl hrl hrh hl hh hB hlh (by linarith)

theorem challenger_plain {l h B t b v0 v1 F : ℚ} (hrl : Repr 53 l) (hrh : Repr 53 h) (hl : |l| ≤ B) (hh : |h| ≤ B)
    (hB : 200 * B < A.top) (hlh : l ≤ h) (take : Bool) (ht : l ≤ t ∧ t ≤ h) (hb : l ≤ b ∧ b ≤ h) (h0 : l ≤ v0 ∧ v0 ≤ h)
    (h1 : l ≤ v1 ∧ v1 ≤ h) (hF0 : 0 ≤ F) (hF2 : F ≤ 2) :
    challenger A (fin l) (fin h) (fin t) (fin b) (fin v0) (fin v1) F take =
      fin (plainLimit A.fl l h (if take then A.fl (b + A.fl (A.fl (v0 - v1) * F)) else t)) ∧
      l ≤ plainLimit A.fl l h (if take then A.fl (b + A.fl (A.fl (v0 - v1) * F)) else t) ∧
      plainLimit A.fl l h (if take then A.fl (b + A.fl (A.fl (v0 - v1) * F)) else t) ≤ h := by
  have hB0 : 0 ≤ B := (abs_nonneg _).trans hl
  have hl' := abs_le.1 hl
  have hh' := abs_le.1 hh
  have ab : ∀ {x : ℚ}, l ≤ x ∧ x ≤ h → |x| ≤ B := fun hx => abs_le.2 ⟨by linarith [hx.1], by linarith [hx.2]⟩
  unfold challenger
  cases take with
  | false =>
    simp only [Bool.false_eq_true, if_false]
    exact limit_plain hfl hrl hrh hl hh hB hlh (by linarith [ab ht])
  | true =>
    simp only [if_true]
    have a1 : |v0 - v1| ≤ 2 * B := (abs_sub v0 v1).trans (by linarith [ab h0, ab h1])
    have a2 := fl_le hfl (v0 - v1)
    have e1 : sub A (fin v0) (fin v1) = fin (A.fl (v0 - v1)) := by
      have : sub A (fin v0) (fin v1) = mk A (v0 - v1) := by rw [sub_eq_add_neg]; rfl
      rw [this, mk_fin hfl (by linarith)]
    have a3 : |A.fl (v0 - v1) * F| ≤ 8 * B := by
      rw [abs_mul, abs_of_nonneg hF0]
      have := mul_le_mul_of_nonneg_left hF2 (abs_nonneg (A.fl (v0 - v1)))
      linarith
    have a4 := fl_le hfl (A.fl (v0 - v1) * F)
    have e2 : mul A (fin (A.fl (v0 - v1))) (fin F) = fin (A.fl (A.fl (v0 - v1) * F)) := by
      have : mul A (fin (A.fl (v0 - v1))) (fin F) = mk A (A.fl (v0 - v1) * F) := rfl
      rw [this, mk_fin hfl (by linarith)]
    have a5 := abs_add_le b (A.fl (A.fl (v0 - v1) * F))
    have a6 := fl_le hfl (b + A.fl (A.fl (v0 - v1) * F))
    have hbB := ab hb
    have e3 : add A (fin b) (fin (A.fl (A.fl (v0 - v1) * F))) = fin (A.fl (b + A.fl (A.fl (v0 - v1) * F))) := by
      have : add A (fin b) (fin (A.fl (A.fl (v0 - v1) * F))) = mk A (b + A.fl (A.fl (v0 - v1) * F)) := rfl
      rw [this, mk_fin hfl (by linarith)]
    rw [e1, e2, e3]
    exact limit_plain hfl hrl hrh hl hh hB hlh (by linarith)

theorem run_plain {l h B : ℚ} (hrl : Repr 53 l) (hrh : Repr 53 h) (hl : |l| ≤ B) (hh : |h| ≤ B) (hB : 200 * B < A.top)
    (hlh : l ≤ h) (ms : List Move) (hF : ∀ m ∈ ms, 0 ≤ m.F ∧ m.F ≤ 2) (pop : List ℚ) (hp : ∀ x ∈ pop, l ≤ x ∧ x ≤ h) :
    challengers A (fin l) (fin h) (pop.map fin) ms = (plain A.fl l h pop ms).map fin ∧ ∀ x ∈ plain A.fl l h pop ms, l ≤ x ∧ x ≤ h := by
  induction ms generalizing pop with
  | nil => simp [challengers, plain]
  | cons m ms ih =>
    have ih' := ih (fun m' hm' => hF m' (List.mem_cons_of_mem _ hm'))
    have hm := hF m (List.mem_cons_self ..)
    unfold challengers plain step
    simp only [List.getElem?_map]
    rcases ht : pop[m.kt]? with _ | t
    · simpa using ih' pop hp
    rcases hb : pop[m.kb]? with _ | b
    · simpa using ih' pop hp
    rcases h0 : pop[m.k0]? with _ | v0
    · simpa using ih' pop hp
    rcases h1 : pop[m.k1]? with _ | v1
    · simpa using ih' pop hp
    have key := challenger_plain hfl hrl hrh hl hh hB hlh m.take (hp _ (List.mem_of_getElem? ht)) (hp _ (List.mem_of_getElem? hb))
      (hp _ (List.mem_of_getElem? h0)) (hp _ (List.mem_of_getElem? h1)) hm.1 hm.2
    simp only [Option.map_some]
    rw [key.1]
    generalize plainLimit A.fl l h (if m.take then A.fl (b + A.fl (A.fl (v0 - v1) * m.F)) else t) = c at *
    have hpop : (if m.win then (pop.map fin).set m.kt (fin c) else pop.map fin) = (if m.win then pop.set m.kt c else pop).map fin := by
      split_ifs
      · rw [List.map_set]
      · rfl
    have hp' : ∀ x ∈ (if m.win then pop.set m.kt c else pop), l ≤ x ∧ x ≤ h := by
      split_ifs
      · intro x hx
        rcases List.mem_or_eq_of_mem_set hx with h' | rfl
        · exact hp x h'
        · exact key.2
      · exact hp
    rw [hpop]
    obtain ⟨i1, i2⟩ := ih' _ hp'
    refine ⟨?_, ?_⟩
    · rw [i1]; rfl
    · intro x hx
      rcases List.mem_cons.1 hx with rfl | hx
      · exact key.2
      · exact i2 x hx

/-- C163: with bounds that are less than 1/200 of the largest number, all values proposed are numbers within the bounds, and the
same that are computed with numbers of any size. -/
theorem C163_moderate_partial (l h B : ℚ) (hrl : Repr 53 l) (hrh : Repr 53 h) (hl : |l| ≤ B) (hh : |h| ≤ B) (hB : 200 * B < A.top)
    (hlh : l ≤ h) (us : List ℚ) (hu : ∀ u ∈ us, 0 ≤ u ∧ u ≤ 1) (ms : List Move) (hF : ∀ m ∈ ms, 0 ≤ m.F ∧ m.F ≤ 2) :
    (∀ v ∈ evaluated A (fin l) (fin h) us ms, Inside l h v) ∧
      evaluated A (fin l) (fin h) us ms =
        ((us.map fun u => plainLimit A.fl l h (A.fl (l + A.fl (A.fl (h - l) * u)))) ++
          plain A.fl l h (us.map fun u => plainLimit A.fl l h (A.fl (l + A.fl (A.fl (h - l) * u)))) ms).map fin := by
  have key : ∀ u ∈ us, _ := fun u hu' => first_plain hfl hrl hrh hl hh hB hlh (hu u hu').1 (hu u hu').2
  have hpop : (us.map fun u => first A (fin l) (fin h) (fin u)) =
      (us.map fun u => plainLimit A.fl l h (A.fl (l + A.fl (A.fl (h - l) * u)))).map fin := by
    rw [List.map_map]
    exact List.map_congr_left fun u hu' => (key u hu').1
  have hp : ∀ x ∈ us.map fun u => plainLimit A.fl l h (A.fl (l + A.fl (A.fl (h - l) * u))), l ≤ x ∧ x ≤ h := by
    intro x hx
    obtain ⟨u, hu', rfl⟩ := List.mem_map.1 hx
    exact (key u hu').2
  have e : evaluated A (fin l) (fin h) us ms =
        ((us.map fun u => plainLimit A.fl l h (A.fl (l + A.fl (A.fl (h - l) * u)))) ++
          plain A.fl l h (us.map fun u => plainLimit A.fl l h (A.fl (l + A.fl (A.fl (h - l) * u)))) ms).map fin := by
    unfold evaluated
    dsimp only
    rw [hpop, (run_plain hfl hrl hrh hl hh hB hlh ms hF _ hp).1, List.map_append]
  refine ⟨?_, e⟩
  rw [e]
  intro v hv
  obtain ⟨x, hx, rfl⟩ := List.mem_map.1 hv
  rcases List.mem_append.1 hx with hx | hx
  · exact ⟨x, rfl, hp x hx⟩
  · exact ⟨x, rfl, (run_plain hfl hrl hrh hl hh hB hlh ms hF _ hp).2 x hx⟩

/-- C163: a parameter whose bounds are equal is fixed. -/
theorem C163_fixed (l : ℚ) (hrl : Repr 53 l) (hl : 200 * |l| < A.top) (us : List ℚ) (hu : ∀ u ∈ us, 0 ≤ u ∧ u ≤ 1) (ms : List Move)
    (hF : ∀ m ∈ ms, 0 ≤ m.F ∧ m.F ≤ 2) : ∀ v ∈ evaluated A (fin l) (fin l) us ms, v = fin l := by
  intro v hv
  obtain ⟨x, rfl, h1, h2⟩ := (C163_moderate_partial hfl l l |l| hrl hrl le_rfl le_rfl hl le_rfl us hu ms hF).1 v hv
  rw [le_antisymm h2 h1]

end

/-! ## Examples -/

namespace Demo

/-- Python's floats. -/
def machine : Machine := ⟨RatioRounded.round53, 2 ^ 1024⟩

theorem rounds : RoundsToNearest machine.fl := RatioRounded.round53_nearest

theorem repr_pow (n : ℕ) : Repr 53 ((2 : ℚ) ^ n) := ⟨1, n, by norm_num, by simp⟩

theorem large (n : ℕ) (h : n < 1024) : (2 : ℚ) ^ n < machine.top := pow_lt_pow_right₀ (by norm_num) h

def moves : List Move := [⟨0, 1, 2, 3, 1 / 2, true, true⟩, ⟨2, 0, 1, 3, 2, true, false⟩]

example := C163_infinite machine (fin 0) pinf (.inl rfl) [0, 1 / 3, 1 / 2, 3 / 4] (by simp; norm_num) moves

/-- All of them are proposed. -/
example : (evaluated machine (fin 0) pinf [0, 1 / 3, 1 / 2, 3 / 4] moves).length = 6 := by decide +kernel

example := C163_too_far_apart rounds (-2 ^ 1023) (2 ^ 1023) (repr_neg (repr_pow _))
  (by rw [abs_neg, abs_of_pos (pow_pos (by norm_num) _)]; exact large _ (by norm_num))
  (by
    have : (2 : ℚ) ^ 1023 - -2 ^ 1023 = 2 ^ 1024 := by rw [sub_neg_eq_add, ← two_mul, ← pow_succ']
    rw [this, fl_self rounds (repr_pow _)]
    exact le_rfl)
  [0, 1 / 3, 1 / 2, 3 / 4] (by simp; norm_num) moves

example := C163_limit rounds (-1) 2 ⟨-1, 0, by norm_num, by norm_num⟩ ⟨2, 0, by norm_num, by norm_num⟩
  (lt_of_eq_of_lt (by norm_num) (large 1 (by norm_num))) (lt_of_eq_of_lt (by norm_num) (large 2 (by norm_num))) (by norm_num) ninf (by simp)

example := C163_limit_one_sided rounds (-1) ⟨-1, 0, by norm_num, by norm_num⟩
  (lt_of_eq_of_lt (by norm_num) (large 1 (by norm_num))) (fin (-3)) (by simp)

example := C163_limit_too_large rounds (2 ^ 1023) (2 ^ 1023) 0 (by rw [← pow_succ']; exact le_rfl) le_rfl (pow_pos (by norm_num) _) (repr_pow _)

example := C163_moderate_partial rounds (-1) 2 2 ⟨-1, 0, by norm_num, by norm_num⟩ ⟨2, 0, by norm_num, by norm_num⟩ (by norm_num) (by norm_num)
  (lt_of_lt_of_le (by norm_num) (large 10 (by norm_num)).le) (by norm_num) [0, 1 / 3, 1 / 2, 3 / 4] (by simp; norm_num) moves
  (by simp [moves]; norm_num)

example := C163_fixed rounds 2 ⟨2, 0, by norm_num, by norm_num⟩ (lt_of_lt_of_le (by norm_num) (large 10 (by norm_num)).le)
  [0, 1 / 3, 1 / 2, 3 / 4] (by simp; norm_num) moves (by simp [moves]; norm_num)

end Demo

end WideBounds
end Ade
