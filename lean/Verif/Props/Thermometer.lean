import Verif.Model.Thermometer
import Mathlib.Analysis.Complex.ExponentialBounds
import Mathlib.Tactic.Linarith
import Mathlib.Tactic.Ring
import Mathlib.Tactic.FieldSimp
import Mathlib.Tactic.Positivity

/-!
# The temperatures of the usage example (C153)
-/

set_option autoImplicit false

namespace Ade
namespace Thermometer

/-! ## Specification -/

/-- Specification: the moving average with weight `w` for the newest value, going on from `u`. -/
def smooth (w u : ℝ) : List ℝ → List ℝ
  | [] => []
  | x :: xs => (w * x + (1 - w) * u) :: smooth w (w * x + (1 - w) * u) xs

/-- Specification: the voltages of the readings in which both sensors had a value. -/
def valid (vs : List (Option ℝ × Option ℝ)) : List (ℝ × ℝ) :=
  vs.filterMap fun v => v.1.bind fun a => v.2.map fun b => (a, b)

/-- Specification: two lists as a list of pairs. -/
def pairs (l l' : List ℝ) : List (ℝ × ℝ) := l.zip l'

/-- Specification: the mean of the values of each channel. -/
noncomputable def mean (l : List (ℝ × ℝ)) : ℝ × ℝ := ((l.map Prod.fst).sum / l.length, (l.map Prod.snd).sum / l.length)

/-- Specification: the values in groups of `n`; what is left over waits. -/
noncomputable def groups (n : ℕ) : ℕ → List (ℝ × ℝ) → List (List (ℝ × ℝ))
  | 0, _ => []
  | f + 1, l => if l.length < n then [] else l.take n :: groups n f (l.drop n)

/-! ## The filter -/

/-- The outputs of the filter for successive inputs. -/
def outputs (settle : ℕ) (a : ℝ) : Option (ℝ × ℝ) → List (ℝ × ℝ) → List (ℝ × ℝ)
  | _, [] => []
  | y, x :: xs => (filter settle a y x).2 :: outputs settle a (some (filter settle a y x).1) xs

theorem update_iter (a : ℝ) (x : ℝ × ℝ) (n : ℕ) :
    (1 - a) * ((update a x)^[n] (0, 0)).1 = (1 - a ^ n) * x.1 ∧
      (1 - a) * ((update a x)^[n] (0, 0)).2 = (1 - a ^ n) * x.2 := by
  induction n with
  | zero => simp
  | succ n ih =>
    rw [Function.iterate_succ_apply']
    obtain ⟨h1, h2⟩ := ih
    unfold update at h1 h2 ⊢
    dsimp only
    constructor
    · rw [mul_add, mul_left_comm, h1]; ring
    · rw [mul_add, mul_left_comm, h2]; ring

theorem outputs_some (settle : ℕ) (a : ℝ) (xs : List (ℝ × ℝ)) : ∀ y : ℝ × ℝ,
    outputs settle a (some y) xs =
      pairs (smooth (1 - a) ((1 - a) * y.1) (xs.map Prod.fst)) (smooth (1 - a) ((1 - a) * y.2) (xs.map Prod.snd)) := by
  induction xs with
  | nil => intro y; rfl
  | cons x xs ih =>
    intro y
    have e : ∀ u v : ℝ, (1 - a) * (u + a * v) = (1 - a) * u + (1 - (1 - a)) * ((1 - a) * v) := fun u v => by ring
    simp only [outputs, ih, filter, settled, update, List.map_cons, smooth, pairs, List.zip_cons_cons, e]

/-- C153: the filter gives, in each channel, a moving average in which the newest value has the weight `1-a`; before the first value
it stands at that value, but for a part of `a` to the number of settling steps. -/
theorem C153_filter (settle : ℕ) (a : ℝ) (x : ℝ × ℝ) (xs : List (ℝ × ℝ)) :
    outputs settle a none (x :: xs) =
      pairs (smooth (1 - a) ((1 - a ^ settle) * x.1) ((x :: xs).map Prod.fst))
        (smooth (1 - a) ((1 - a ^ settle) * x.2) ((x :: xs).map Prod.snd)) := by
  have h : outputs settle a none (x :: xs) = outputs settle a (some ((update a x)^[settle] (0, 0))) (x :: xs) := rfl
  rw [h, outputs_some]
  obtain ⟨h1, h2⟩ := update_iter a x settle
  rw [h1, h2]

theorem smooth_const (w u x : ℝ) (n : ℕ) (k : ℕ) (hk : k < n) :
    (smooth w u (List.replicate n x))[k]? = some (x + (1 - w) ^ (k + 1) * (u - x)) := by
  induction n generalizing u k with
  | zero => omega
  | succ n ih =>
    rw [List.replicate_succ]
    cases k with
    | zero => simp only [smooth, List.getElem?_cons_zero]; congr 1; ring
    | succ k =>
      simp only [smooth, List.getElem?_cons_succ]
      rw [ih _ k (by omega)]
      congr 1
      ring

/-- C153: the first value given is the first one read, but for the part `a` to the power of one more than the number of settling
steps. -/
theorem C153_first (settle : ℕ) (a : ℝ) (x : ℝ × ℝ) (xs : List (ℝ × ℝ)) :
    (outputs settle a none (x :: xs)).head? = some (x.1 - a ^ (settle + 1) * x.1, x.2 - a ^ (settle + 1) * x.2) := by
  rw [C153_filter]
  simp only [List.map_cons, smooth, pairs, List.zip_cons_cons, List.head?_cons, Option.some.injEq, Prod.mk.injEq]
  constructor <;> ring

/-- C153: when the input jumps to another value and stays there, the distance of the output from it shrinks by the factor `a` with
each reading. -/
theorem C153_step_response (settle : ℕ) (a : ℝ) (y x : ℝ × ℝ) (n k : ℕ) (hk : k < n) :
    (outputs settle a (some y) (List.replicate n x))[k]? =
      some (x.1 + a ^ (k + 1) * ((1 - a) * y.1 - x.1), x.2 + a ^ (k + 1) * ((1 - a) * y.2 - x.2)) := by
  rw [outputs_some]
  simp only [List.map_replicate, pairs]
  rw [List.getElem?_zip_eq_some]
  rw [smooth_const _ _ _ _ _ hk, smooth_const _ _ _ _ _ hk]
  simp

theorem smooth_between (w u lo hi : ℝ) (xs : List ℝ) (hw : 0 ≤ w) (hw' : w ≤ 1) (hu : lo ≤ u ∧ u ≤ hi)
    (hx : ∀ x ∈ xs, lo ≤ x ∧ x ≤ hi) : ∀ z ∈ smooth w u xs, lo ≤ z ∧ z ≤ hi := by
  induction xs generalizing u with
  | nil => simp [smooth]
  | cons x xs ih =>
    have hx0 := hx x (by simp)
    have h : lo ≤ w * x + (1 - w) * u ∧ w * x + (1 - w) * u ≤ hi := by
      constructor
      · nlinarith [mul_le_mul_of_nonneg_left hx0.1 hw, mul_le_mul_of_nonneg_left hu.1 (sub_nonneg.2 hw')]
      · nlinarith [mul_le_mul_of_nonneg_left hx0.2 hw, mul_le_mul_of_nonneg_left hu.2 (sub_nonneg.2 hw')]
    intro z hz
    simp only [smooth, List.mem_cons] at hz
    rcases hz with rfl | hz
    · exact h
    · exact ih _ h (fun x hx' => hx x (List.mem_cons_of_mem _ hx')) z hz

/-- C153: voltages from `lo` to `hi` (not negative) give filtered voltages in that range, but for the part not settled below. -/
theorem C153_between (settle : ℕ) (a lo hi : ℝ) (xs : List (ℝ × ℝ)) (ha : 0 ≤ a) (ha' : a ≤ 1) (hlo : 0 ≤ lo)
    (hx : ∀ x ∈ xs, (lo ≤ x.1 ∧ x.1 ≤ hi) ∧ lo ≤ x.2 ∧ x.2 ≤ hi) :
    ∀ z ∈ outputs settle a none xs, ((1 - a ^ settle) * lo ≤ z.1 ∧ z.1 ≤ hi) ∧ (1 - a ^ settle) * lo ≤ z.2 ∧ z.2 ≤ hi := by
  cases xs with
  | nil => simp [outputs]
  | cons x xs =>
    intro z hz
    rw [C153_filter] at hz
    have hp : 0 ≤ a ^ settle := pow_nonneg ha _
    have hp' : a ^ settle ≤ 1 := pow_le_one₀ ha ha'
    have h0 := hx x (by simp)
    have key : ∀ t, lo ≤ t → (1 - a ^ settle) * lo ≤ t := fun t h => by nlinarith
    have key2 : ∀ t, lo ≤ t ∧ t ≤ hi → (1 - a ^ settle) * lo ≤ (1 - a ^ settle) * t ∧ (1 - a ^ settle) * t ≤ hi :=
      fun t h => ⟨by nlinarith, by nlinarith⟩
    have hz1 := (List.of_mem_zip hz)
    refine ⟨smooth_between (1 - a) _ _ hi _ (by linarith) (by linarith) (key2 _ h0.1) ?_ _ hz1.1,
      smooth_between (1 - a) _ _ hi _ (by linarith) (by linarith) (key2 _ h0.2) ?_ _ hz1.2⟩
    · intro t ht
      obtain ⟨p, hp, rfl⟩ := List.mem_map.1 ht
      exact ⟨key _ (hx p hp).1.1, (hx p hp).1.2⟩
    · intro t ht
      obtain ⟨p, hp, rfl⟩ := List.mem_map.1 ht
      exact ⟨key _ (hx p hp).2.1, (hx p hp).2.2⟩

/-- C153: readings that take the time constant together shrink the distance by the factor 1/e; with the settings of the program that
are 45 readings, and the part not settled at the beginning is below `2^(-222)`. -/
theorem C153_time_constant : (∀ (ts tc : ℝ) (k : ℕ), tc ≠ 0 → k * ts = tc → coefficient ts tc ^ k = Real.exp (-1)) ∧
    coefficient 2 90 ^ 45 = Real.exp (-1) ∧ coefficient 2 90 ^ nSettle < 1 / 2 ^ 222 := by
  have h : ∀ (ts tc : ℝ) (k : ℕ), tc ≠ 0 → k * ts = tc → coefficient ts tc ^ k = Real.exp (-1) := by
    intro ts tc k h0 h
    unfold coefficient
    rw [← Real.exp_nat_mul]
    congr 1
    rw [neg_div, mul_neg, ← mul_div_assoc, h, div_self h0]
  refine ⟨h, h 2 90 45 (by norm_num) (by norm_num), ?_⟩
  unfold coefficient nSettle
  rw [← Real.exp_nat_mul]
  have h1 : ((10000 : ℕ) : ℝ) * (-2 / 90) < ((222 : ℕ) : ℝ) * (-1) := by norm_num
  refine (Real.exp_lt_exp.2 h1).trans_le ?_
  rw [Real.exp_nat_mul, Real.exp_neg, inv_pow, one_div]
  apply inv_anti₀ (by positivity)
  exact pow_le_pow_left₀ (by norm_num) (by linarith [Real.exp_one_gt_d9]) _

/-! ## The curve -/

/-- C153: a higher voltage is a higher temperature. -/
theorem C153_increasing (a0 a1 Rs Vp V V' : ℝ) (h0 : 0 < a0) (h1 : 0 < a1) (hR : 0 < Rs) (hV : 0 < V) (hVV : V < V')
    (hp : V' < Vp) : curve a0 a1 Rs Vp V < curve a0 a1 Rs Vp V' := by
  unfold curve
  have hd : 0 < a0 * (Vp - V) := mul_pos h0 (by linarith)
  have hd' : 0 < a0 * (Vp - V') := mul_pos h0 (by linarith)
  apply mul_lt_mul_of_pos_left _ h1
  apply Real.log_lt_log (div_pos (mul_pos hR hV) hd)
  rw [div_lt_div_iff₀ hd hd']
  have : Rs * V * (a0 * (Vp - V')) < Rs * V' * (a0 * (Vp - V)) := by
    have e : Rs * V' * (a0 * (Vp - V)) - Rs * V * (a0 * (Vp - V')) = Rs * a0 * Vp * (V' - V) := by ring
    have : 0 < Rs * a0 * Vp * (V' - V) := by
      have : 0 < Vp := by linarith
      have : 0 < V' - V := by linarith
      positivity
    linarith
  exact this

/-- C153: the two temperatures are the solutions of the equation of the curve for the voltages and the parameters of their
channels, and neither depends on the other channel. -/
theorem C153_channels (p : Params) (V : ℝ × ℝ) (hp : (0 < p.a0.1 ∧ 0 < p.a0.2) ∧ (p.a1.1 ≠ 0 ∧ p.a1.2 ≠ 0) ∧ 0 < p.Rs.1 ∧ 0 < p.Rs.2)
    (hV : (0 < V.1 ∧ V.1 < p.Vp) ∧ 0 < V.2 ∧ V.2 < p.Vp) :
    p.a0.1 * Real.exp ((v2t p V).1 / p.a1.1) * (p.Vp - V.1) = p.Rs.1 * V.1 ∧
      p.a0.2 * Real.exp ((v2t p V).2 / p.a1.2) * (p.Vp - V.2) = p.Rs.2 * V.2 := by
  have key : ∀ a0 a1 Rs v : ℝ, 0 < a0 → a1 ≠ 0 → 0 < Rs → 0 < v → v < p.Vp →
      a0 * Real.exp (curve a0 a1 Rs p.Vp v / a1) * (p.Vp - v) = Rs * v := by
    intro a0 a1 Rs v h0 h1 hR hv hv'
    have hd : 0 < p.Vp - v := sub_pos.2 hv'
    unfold curve
    rw [mul_div_cancel_left₀ _ h1, Real.exp_log (by positivity)]
    field_simp
  obtain ⟨⟨a, b⟩, ⟨c, d⟩, e, f⟩ := hp
  exact ⟨key _ _ _ _ a c e hV.1.1 hV.1.2, key _ _ _ _ b d f hV.2.1 hV.2.2⟩

example := C153_channels ⟨(1, 2), (3, 4), (5, 6), 5⟩ (1, 2) (by norm_num) (by norm_num)

/-- C153: with the thermistor, of resistance `R`, above a resistance `Q` to ground in a voltage divider, a lower resistance of the
thermistor is a higher temperature. -/
theorem C153_thermistor (a0 a1 Rs Vp Q R R' : ℝ) (h0 : 0 < a0) (h1 : 0 < a1) (hR : 0 < Rs) (hp : 0 < Vp) (hQ : 0 < Q)
    (hR0 : 0 < R) (hRR : R < R') :
    curve a0 a1 Rs Vp (Vp * Q / (Q + R')) < curve a0 a1 Rs Vp (Vp * Q / (Q + R)) := by
  apply C153_increasing a0 a1 Rs Vp _ _ h0 h1 hR
  · have : 0 < Q + R' := by linarith
    positivity
  · apply div_lt_div_of_pos_left (by positivity) (by linarith) (by linarith)
  · rw [div_lt_iff₀ (by linarith)]
    nlinarith

/-! ## The averages -/

theorem foldl_sum (l : List (ℝ × ℝ)) (T : ℝ × ℝ) :
    l.foldl (fun T r => (T.1 + r.1, T.2 + r.2)) T = (T.1 + (l.map Prod.fst).sum, T.2 + (l.map Prod.snd).sum) := by
  induction l generalizing T with
  | nil => simp
  | cons r l ih => simp [ih, add_assoc]

theorem average_eq (l : List (ℝ × ℝ)) : average l = mean l := by
  unfold average mean
  simp [foldl_sum]

theorem getTemps_valid (c : Setup) (s : St) (v1 v2 : ℝ) (n : ℕ) (hn : ∀ k : ℕ, (k : ℝ) < c.n ↔ k < n) :
    getTemps c s (some v1, some v2) =
      if s.readings.length + 1 < n then
        (⟨some (filter c.settle c.a s.y (v1, v2)).1,
          s.readings ++ [v2t c.params (filter c.settle c.a s.y (v1, v2)).2]⟩, none)
      else (⟨some (filter c.settle c.a s.y (v1, v2)).1, []⟩,
        some (mean (s.readings ++ [v2t c.params (filter c.settle c.a s.y (v1, v2)).2]))) := by
  unfold getTemps
  dsimp only
  rw [average_eq]
  simp only [hn, List.length_append, List.length_singleton]

/-- C153: readings in which a sensor had no value are left out; without them the temperatures are the same. -/
theorem C153_left_out (c : Setup) (s : St) (vs : List (Option ℝ × Option ℝ)) :
    temps c s vs = temps c s ((valid vs).map fun v => (some v.1, some v.2)) := by
  induction vs generalizing s with
  | nil => rfl
  | cons v vs ih =>
    rcases v with ⟨_ | v1, _ | v2⟩
    · simpa [temps, getTemps, valid] using ih s
    · simpa [temps, getTemps, valid] using ih s
    · simpa [temps, getTemps, valid] using ih s
    · have e : valid ((some v1, some v2) :: vs) = (v1, v2) :: valid vs := by simp [valid]
      rw [e, List.map_cons]
      simp only [temps]
      rw [ih]

theorem groups_fuel (n : ℕ) (hn : 0 < n) (f g : ℕ) (l : List (ℝ × ℝ)) (hf : l.length ≤ f) (hg : l.length ≤ g) :
    groups n f l = groups n g l := by
  induction f generalizing g l with
  | zero =>
    have : l = [] := List.length_eq_zero_iff.1 (by omega)
    subst this
    cases g <;> simp [groups, hn]
  | succ f ih =>
    cases g with
    | zero =>
      have : l = [] := List.length_eq_zero_iff.1 (by omega)
      subst this
      simp [groups, hn]
    | succ g =>
      simp only [groups]
      split_ifs with h
      · rfl
      · rw [ih g (l.drop n) (by simp; omega) (by simp; omega)]

theorem temps_groups (c : Setup) (n : ℕ) (hn0 : 0 < n) (hn : ∀ k : ℕ, (k : ℝ) < c.n ↔ k < n) (vs : List (ℝ × ℝ)) :
    ∀ s : St, s.readings.length < n →
      temps c s (vs.map fun v => (some v.1, some v.2)) =
        (groups n (s.readings.length + vs.length)
          (s.readings ++ (outputs c.settle c.a s.y vs).map (v2t c.params))).map mean := by
  induction vs with
  | nil =>
    intro s hs
    simp only [List.map_nil, temps, outputs, List.append_nil, List.length_nil, Nat.add_zero]
    cases h : s.readings.length with
    | zero => rfl
    | succ k => simp only [groups]; rw [if_pos hs]; rfl
  | cons v vs ih =>
    intro s hs
    have hl : ∀ y, (outputs c.settle c.a y vs).length = vs.length := by
      intro y
      clear ih hs
      induction vs generalizing y with
      | nil => rfl
      | cons x xs ih => simp [outputs, ih]
    simp only [List.map_cons, temps, outputs]
    rw [getTemps_valid c s v.1 v.2 n hn]
    split_ifs with h
    · simp only [Option.toList_none, List.nil_append]
      rw [ih ⟨_, _⟩ (by simpa using h)]
      dsimp only
      rw [List.append_assoc, List.singleton_append]
      congr 1
      apply groups_fuel n hn0 <;> simp [hl] <;> omega
    · have hlen : s.readings.length + 1 = n := by omega
      simp only [Option.toList_some, List.singleton_append]
      rw [ih ⟨_, []⟩ (by simpa using hn0)]
      have e : s.readings.length + (vs.length + 1) = (s.readings.length + vs.length) + 1 := by omega
      rw [List.length_cons, e]
      simp only [groups]
      rw [if_neg (by simp [hl]; omega)]
      rw [List.map_cons]
      have ht : ∀ (x : ℝ × ℝ) (l : List (ℝ × ℝ)), (s.readings ++ x :: l).take n = s.readings ++ [x] ∧
          (s.readings ++ x :: l).drop n = l := by
        intro x l
        rw [show s.readings ++ x :: l = (s.readings ++ [x]) ++ l by simp]
        have : n = (s.readings ++ [x]).length := by simp; omega
        rw [this]
        exact ⟨List.take_left, List.drop_left⟩
      rw [(ht _ _).1, (ht _ _).2]
      congr 1
      simp only [List.nil_append, List.length_nil, Nat.zero_add]
      congr 1
      apply groups_fuel n hn0 <;> simp [hl]

/-- C153: the temperatures are the means of the temperatures of successive groups of readings, as many in each as `N_READINGS`, rounded
up, says; every reading in which both sensors had a value is used in exactly one group, in order, and those of an incomplete group
wait. -/
theorem C153_averages (c : Setup) (n : ℕ) (hn0 : 0 < n) (hn : (n : ℝ) - 1 < c.n ∧ c.n ≤ n) (vs : List (Option ℝ × Option ℝ)) :
    temps c ⟨none, []⟩ vs =
      (groups n (valid vs).length ((outputs c.settle c.a none (valid vs)).map (v2t c.params))).map mean := by
  have h : ∀ k : ℕ, (k : ℝ) < c.n ↔ k < n := by
    intro k
    constructor
    · intro h
      have : (k : ℝ) < n := lt_of_lt_of_le h hn.2
      exact_mod_cast this
    · intro h
      have : (k : ℝ) + 1 ≤ n := by exact_mod_cast h
      linarith
  rw [C153_left_out, temps_groups c n hn0 h _ ⟨none, []⟩ (by simpa using hn0)]
  simp

/-- C153: a temperature is given after each `n` readings with values, no more often. -/
theorem C153_count (c : Setup) (n : ℕ) (hn0 : 0 < n) (hn : (n : ℝ) - 1 < c.n ∧ c.n ≤ n) (vs : List (Option ℝ × Option ℝ)) :
    (temps c ⟨none, []⟩ vs).length = (valid vs).length / n := by
  rw [C153_averages c n hn0 hn, List.length_map]
  have hl : ∀ y l, (outputs c.settle c.a y l).length = l.length := by
    intro y l
    induction l generalizing y with
    | nil => rfl
    | cons x xs ih => simp [outputs, ih]
  have hg : ∀ f (l : List (ℝ × ℝ)), l.length ≤ f → (groups n f l).length = l.length / n := by
    intro f
    induction f with
    | zero => intro l h; have : l.length = 0 := by omega
              simp [groups, this]
    | succ f ih =>
      intro l h
      simp only [groups]
      split_ifs with h1
      · simp [Nat.div_eq_of_lt h1]
      · rw [List.length_cons, ih _ (by simp; omega), List.length_drop, Nat.div_eq l.length n, if_pos ⟨hn0, by omega⟩]
  rw [hg _ _ (by simp [hl])]
  simp [hl]

/-! ## Examples -/

namespace Demo

/-- The program: a reading every two seconds, averages of ten minutes. -/
noncomputable def setup : Setup := ⟨nSettle, coefficient 2 90,
  ⟨(0.370463, 0.370874), (19.9521, 19.1129), (13.8721, 14.1048), 23.463⟩, 60 * 10 / 2⟩

theorem setup_n : ((300 : ℕ) : ℝ) - 1 < setup.n ∧ setup.n ≤ (300 : ℕ) := by
  constructor <;> norm_num [setup]

example := C153_filter nSettle (1 / 2) (1, 2) [(3, 4)]

example := C153_first nSettle (1 / 2) (1, 2) [(3, 4)]

example := C153_step_response nSettle (1 / 2) (1, 2) (3, 4) 10 5 (by norm_num)

example := C153_between nSettle (1 / 2) 1 4 [(1, 2), (3, 4)] (by norm_num) (by norm_num) (by norm_num) (by
  intro x hx
  simp only [List.mem_cons, List.not_mem_nil, or_false] at hx
  rcases hx with rfl | rfl <;> norm_num)

example := C153_increasing 0.370463 19.9521 13.8721 23.463 5 6 (by norm_num) (by norm_num) (by norm_num) (by norm_num)
  (by norm_num) (by norm_num)

example := C153_thermistor 0.370463 19.9521 13.8721 23.463 9.4 10 12 (by norm_num) (by norm_num) (by norm_num) (by norm_num)
  (by norm_num) (by norm_num) (by norm_num)

example := C153_left_out setup ⟨none, []⟩ [(some 5, none), (some 5, some 6)]

example := C153_averages setup 300 (by norm_num) setup_n (List.replicate 700 (some 5, some 6))

example : (temps setup ⟨none, []⟩ ((none, some 1) :: List.replicate 700 (some 5, some 6))).length = 2 := by
  rw [C153_count setup 300 (by norm_num) setup_n]
  have h : valid ((none, some 1) :: List.replicate 700 (some 5, some 6)) = List.replicate 700 (5, 6) := by
    unfold valid
    rw [List.filterMap_cons_none rfl]
    exact List.filterMap_replicate_of_some rfl
  rw [h, List.length_replicate]

end Demo

end Thermometer
end Ade
