import Verif.Model.FigureRounded
import Verif.Props.Figures
import Verif.Props.RelationsRounded
import Verif.Props.Single

/-!
# C166: marker groups of an X-Y plot with rounding
-/

set_option autoImplicit false

namespace Ade
namespace FigureRounded

/-- What is assumed of the rounding of an operation: it keeps the order and zero, and its relative error is at most `2^-23` (also that
of two successive roundings to nearest with 24 and 53 bits). -/
structure Rounds (fl : ℚ → ℚ) : Prop where
  mono : ∀ x y, x ≤ y → fl x ≤ fl y
  zero : fl 0 = 0
  err : ∀ x, 0 ≤ x → |fl x - x| ≤ x / 2 ^ 23

/-- All operations are rounded like this. -/
structure Good (o : Ops) : Prop where
  conv : Rounds o.conv
  sub : Rounds o.sub
  mul : Rounds o.mul
  add : Rounds o.add

/-- The scores of the records in `K`, from `lo` to `hi` and in ascending order; `lo` is not changed by rounding. -/
structure Scores (o : Ops) (sse : ℕ → ℚ) (K : List ℕ) (lo hi : ℚ) : Prop where
  nodup : K.Nodup
  first : K.head?.map sse = some lo
  last : K.getLast?.map sse = some hi
  low : ∀ k ∈ K, lo ≤ sse k
  high : ∀ k ∈ K, sse k ≤ hi
  exact : o.add lo = lo

/-! ## Lemmas -/

theorem nonneg {fl : ℚ → ℚ} (h : Rounds fl) {x : ℚ} (hx : 0 ≤ x) : 0 ≤ fl x := h.zero ▸ h.mono _ _ hx

section
variable {o : Ops} (ho : Good o)
include ho

theorem threshold_zero {lo hi : ℚ} (h : o.add lo = lo) : threshold o lo hi 0 = lo := by
  rw [threshold, ho.conv.zero, zero_mul, ho.mul.zero, add_zero, h]

theorem threshold_equal {lo f : ℚ} (h : o.add lo = lo) : threshold o lo lo f = lo := by
  rw [threshold, sub_self, ho.sub.zero, mul_zero, ho.mul.zero, add_zero, h]

theorem threshold_mono {lo hi f g : ℚ} (h : lo ≤ hi) (hfg : f ≤ g) : threshold o lo hi f ≤ threshold o lo hi g := by
  refine ho.add.mono _ _ (add_le_add le_rfl (ho.mul.mono _ _ ?_))
  exact mul_le_mul_of_nonneg_right (ho.conv.mono _ _ hfg) (nonneg ho.sub (sub_nonneg.2 h))

end

theorem mem_fraction {o : Ops} {sse : ℕ → ℚ} {K : List ℕ} {lo hi : ℚ} (h : Scores o sse K lo hi) (f1 f2 : ℚ) (k : ℕ) :
    k ∈ fraction o sse K f1 f2 ↔ k ∈ K ∧ threshold o lo hi f1 ≤ sse k ∧ sse k < threshold o lo hi f2 := by
  have e0 : sse (K.headD 0) = lo := by
    have := h.first
    cases K with
    | nil => simp at this
    | cons a l => simpa using this
  have en : sse (K.getLastD 0) = hi := by
    have := h.last
    rw [List.getLastD_eq_getLast?]
    cases hl : K.getLast? with
    | none => rw [hl] at this; simp at this
    | some a => rw [hl] at this; simpa using this
  unfold fraction
  rw [e0, en, List.mem_filter]
  simp only [Bool.and_eq_true, decide_eq_true_eq]

theorem drawn_eq (o : Ops) (sse : ℕ → ℚ) (K : List ℕ) : drawn o sse K =
    [(3, fraction o sse K 0 (5/100)), (2, fraction o sse K (5/100) (10/100)), (3/2, fraction o sse K (10/100) (20/100)),
      (1, fraction o sse K (20/100) (50/100)), (1/2, fraction o sse K (50/100) (70/100))] := Figures.marked_eq _

/-- Of successive ranges exactly one has a given number in it. -/
theorem one_of_five {x a0 a1 a2 a3 a4 a5 : ℚ} (h0 : a0 ≤ x) (t2 : a1 ≤ a2) (t3 : a2 ≤ a3) (t4 : a3 ≤ a4)
    (hx : x < a5) : (if a0 ≤ x ∧ x < a1 then 1 else 0) + ((if a1 ≤ x ∧ x < a2 then 1 else 0) + ((if a2 ≤ x ∧ x < a3 then 1 else 0) +
      ((if a3 ≤ x ∧ x < a4 then 1 else 0) + (if a4 ≤ x ∧ x < a5 then 1 else 0)))) = (1 : ℕ) := by
  rcases lt_or_ge x a1 with h1 | h1
  · rw [if_pos ⟨h0, h1⟩, if_neg (fun h => by linarith [h.1]), if_neg (fun h => by linarith [h.1]), if_neg (fun h => by linarith [h.1]),
      if_neg (fun h => by linarith [h.1])]
  rw [if_neg (fun h => by linarith [h.2])]
  rcases lt_or_ge x a2 with h2 | h2
  · rw [if_pos ⟨h1, h2⟩, if_neg (fun h => by linarith [h.1]), if_neg (fun h => by linarith [h.1]), if_neg (fun h => by linarith [h.1])]
  rw [if_neg (fun h => by linarith [h.2])]
  rcases lt_or_ge x a3 with h3 | h3
  · rw [if_pos ⟨h2, h3⟩, if_neg (fun h => by linarith [h.1]), if_neg (fun h => by linarith [h.1])]
  rw [if_neg (fun h => by linarith [h.2])]
  rcases lt_or_ge x a4 with h4 | h4
  · rw [if_pos ⟨h3, h4⟩, if_neg (fun h => by linarith [h.1])]
  rw [if_neg (fun h => by linarith [h.2]), if_pos ⟨h4, hx⟩]

/-! ## Theorems -/

/-- C166: whatever the rounding, every record with a score below the last boundary is drawn exactly once, and no other record is. -/
theorem C166_once (o : Ops) (ho : Good o) (sse : ℕ → ℚ) (K : List ℕ) (lo hi : ℚ) (h : Scores o sse K lo hi) (k : ℕ) (hk : k ∈ K) :
    (sse k < threshold o lo hi (70/100) → ((drawn o sse K).map Prod.snd).flatten.count k = 1) ∧
    (threshold o lo hi (70/100) ≤ sse k → ((drawn o sse K).map Prod.snd).flatten.count k = 0) := by
  have hcount : ∀ f1 f2, (fraction o sse K f1 f2).count k =
      if threshold o lo hi f1 ≤ sse k ∧ sse k < threshold o lo hi f2 then 1 else 0 := by
    intro f1 f2
    have hnd' : (fraction o sse K f1 f2).Nodup := h.nodup.filter _
    split_ifs with hc
    · exact List.count_eq_one_of_mem hnd' ((mem_fraction h f1 f2 k).mpr ⟨hk, hc⟩)
    · rw [List.count_eq_zero]
      exact fun hm => hc ((mem_fraction h f1 f2 k).mp hm).2
  have hle : lo ≤ hi := (h.low k hk).trans (h.high k hk)
  have t0 := threshold_zero ho (hi := hi) h.exact
  have t1 : threshold o lo hi 0 ≤ threshold o lo hi (5/100) := threshold_mono ho hle (by norm_num)
  have t2 : threshold o lo hi (5/100) ≤ threshold o lo hi (10/100) := threshold_mono ho hle (by norm_num)
  have t3 : threshold o lo hi (10/100) ≤ threshold o lo hi (20/100) := threshold_mono ho hle (by norm_num)
  have t4 : threshold o lo hi (20/100) ≤ threshold o lo hi (50/100) := threshold_mono ho hle (by norm_num)
  have t5 : threshold o lo hi (50/100) ≤ threshold o lo hi (70/100) := threshold_mono ho hle (by norm_num)
  have hlow := h.low k hk
  rw [← t0] at hlow
  rw [drawn_eq]
  simp only [List.map_cons, List.map_nil, List.flatten_cons, List.flatten_nil, List.append_nil, List.count_append, hcount]
  generalize threshold o lo hi 0 = a0 at *
  generalize threshold o lo hi (5/100) = a1 at *
  generalize threshold o lo hi (10/100) = a2 at *
  generalize threshold o lo hi (20/100) = a3 at *
  generalize threshold o lo hi (50/100) = a4 at *
  generalize threshold o lo hi (70/100) = a5 at *
  generalize sse k = x at *
  constructor
  · intro hx
    exact one_of_five hlow t2 t3 t4 hx
  · intro hx
    have e1 : ¬ x < a5 := not_lt.2 hx
    have e2 : ¬ x < a4 := not_lt.2 (by linarith)
    have e3 : ¬ x < a3 := not_lt.2 (by linarith)
    have e4 : ¬ x < a2 := not_lt.2 (by linarith)
    have e5 : ¬ x < a1 := not_lt.2 (by linarith)
    simp only [e1, e2, e3, e4, e5, and_false, if_false]

/-- C166: whatever the rounding, of two records drawn with different marker sizes the one with the larger marker has the lower score. -/
theorem C166_larger_is_better (o : Ops) (ho : Good o) (sse : ℕ → ℚ) (K : List ℕ) (lo hi : ℚ) (h : Scores o sse K lo hi) (ms ms' : ℚ)
    (G G' : List ℕ) (hG : (ms, G) ∈ drawn o sse K) (hG' : (ms', G') ∈ drawn o sse K) (k k' : ℕ) (hk : k ∈ G) (hk' : k' ∈ G')
    (hms : ms' < ms) : sse k < sse k' := by
  have hm := fun f1 f2 k => (mem_fraction h f1 f2 k).1
  have key : ∀ f1 f2 g1 g2, f2 ≤ g1 → k ∈ fraction o sse K f1 f2 → k' ∈ fraction o sse K g1 g2 → sse k < sse k' := by
    intro f1 f2 g1 g2 hfg a b
    obtain ⟨a0, a1, a2⟩ := hm _ _ _ a
    obtain ⟨b0, b1, b2⟩ := hm _ _ _ b
    exact lt_of_lt_of_le a2 ((threshold_mono ho ((h.low k a0).trans (h.high k a0)) hfg).trans b1)
  rw [drawn_eq] at hG hG'
  simp only [List.mem_cons, Prod.mk.injEq, List.not_mem_nil, or_false] at hG hG'
  rcases hG with ⟨rfl, rfl⟩ | ⟨rfl, rfl⟩ | ⟨rfl, rfl⟩ | ⟨rfl, rfl⟩ | ⟨rfl, rfl⟩ <;>
  rcases hG' with ⟨rfl, rfl⟩ | ⟨rfl, rfl⟩ | ⟨rfl, rfl⟩ | ⟨rfl, rfl⟩ | ⟨rfl, rfl⟩ <;>
  first
  | (refine absurd hms ?_; norm_num; done)
  | (refine key _ _ _ _ ?_ hk hk'; norm_num)

/-- C166: the boundaries differ from those in exact arithmetic by at most one part in a million of the highest score. -/
theorem C166_boundaries (o : Ops) (ho : Good o) (lo hi f : ℚ) (hlo : 0 ≤ lo) (hle : lo ≤ hi) (hf0 : 0 ≤ f) (hf1 : f ≤ 1) :
    |threshold o lo hi f - (lo + f * (hi - lo))| ≤ hi / 10 ^ 6 := by
  have hd : 0 ≤ hi - lo := sub_nonneg.2 hle
  have e1 := abs_le.1 (ho.conv.err f hf0)
  have e2 := abs_le.1 (ho.sub.err _ hd)
  unfold threshold
  have n1 := nonneg ho.conv hf0
  have n2 := nonneg ho.sub hd
  generalize o.conv f = f' at *
  generalize o.sub (hi - lo) = d' at *
  have e3 := abs_le.1 (ho.mul.err _ (mul_nonneg n1 n2))
  have n3 := nonneg ho.mul (mul_nonneg n1 n2)
  have q1 : f' * d' ≤ f * (hi - lo) + (hi - lo) * (3 / 2 ^ 23) := by
    calc f' * d' ≤ (f + f / 2 ^ 23) * ((hi - lo) + (hi - lo) / 2 ^ 23) :=
          mul_le_mul (by linarith [e1.2]) (by linarith [e2.2]) n2 (by positivity)
      _ = f * (hi - lo) + f * ((hi - lo) * (2 / 2 ^ 23 + 1 / 2 ^ 46)) := by ring
      _ ≤ f * (hi - lo) + 1 * ((hi - lo) * (2 / 2 ^ 23 + 1 / 2 ^ 46)) := by
          have : 0 ≤ (hi - lo) * (2 / 2 ^ 23 + 1 / 2 ^ 46) := mul_nonneg hd (by norm_num)
          linarith [mul_le_mul_of_nonneg_right hf1 this]
      _ ≤ _ := by rw [one_mul]; have := mul_le_mul_of_nonneg_left (show (2 : ℚ) / 2 ^ 23 + 1 / 2 ^ 46 ≤ 3 / 2 ^ 23 by norm_num) hd; linarith
  have q2 : f * (hi - lo) - (hi - lo) * (3 / 2 ^ 23) ≤ f' * d' := by
    calc f * (hi - lo) - (hi - lo) * (3 / 2 ^ 23) ≤ f * (hi - lo) - 1 * ((hi - lo) * (2 / 2 ^ 23)) := by
          have := mul_le_mul_of_nonneg_left (show (2 : ℚ) / 2 ^ 23 ≤ 3 / 2 ^ 23 by norm_num) hd
          linarith
      _ ≤ f * (hi - lo) - f * ((hi - lo) * (2 / 2 ^ 23)) := by
          have : 0 ≤ (hi - lo) * (2 / 2 ^ 23) := mul_nonneg hd (by norm_num)
          linarith [mul_le_mul_of_nonneg_right hf1 this]
      _ ≤ f * (hi - lo) - f * ((hi - lo) * (2 / 2 ^ 23)) + f * (hi - lo) * (1 / 2 ^ 46) := by
          have : 0 ≤ f * (hi - lo) * (1 / 2 ^ 46) := by positivity
          linarith
      _ = (f - f / 2 ^ 23) * ((hi - lo) - (hi - lo) / 2 ^ 23) := by ring
      _ ≤ f' * d' := mul_le_mul (by linarith [e1.1]) (by linarith [e2.1]) (by linarith) n1
  have q3 : f * (hi - lo) ≤ hi - lo := by linarith [mul_le_mul_of_nonneg_right hf1 hd]
  have q0 : 0 ≤ f * (hi - lo) := mul_nonneg hf0 hd
  have e4 := abs_le.1 (ho.add.err _ (add_nonneg hlo n3))
  generalize o.mul (f' * d') = m at *
  generalize f' * d' = y at *
  generalize o.add (lo + m) = t at *
  generalize f * (hi - lo) = x at *
  rw [abs_le]
  norm_num at *
  constructor <;> linarith [e3.1, e3.2, e4.1, e4.2]

/-- C166: the best record has the largest marker, if the highest score differs from it by one part in 40000 or more. -/
theorem C166_best_partial (o : Ops) (ho : Good o) (sse : ℕ → ℚ) (K : List ℕ) (lo hi : ℚ) (h : Scores o sse K lo hi) (hlo : 0 ≤ lo)
    (hd : lo / 40000 ≤ hi - lo) (hne : lo < hi) (k : ℕ) (hk : k ∈ K) (hb : sse k = lo) :
    ∃ G, (3, G) ∈ drawn o sse K ∧ k ∈ G := by
  refine ⟨_, by rw [drawn_eq]; exact List.mem_cons_self .., (mem_fraction h _ _ k).2 ⟨hk, ?_, ?_⟩⟩
  · rw [threshold_zero ho h.exact, hb]
  · rw [hb]
    have hd0 : 0 ≤ hi - lo := by linarith
    have e1 := abs_le.1 (ho.conv.err (5/100) (by norm_num))
    have e2 := abs_le.1 (ho.sub.err _ hd0)
    unfold threshold
    have n1 := nonneg ho.conv (show (0 : ℚ) ≤ 5/100 by norm_num)
    have n2 := nonneg ho.sub hd0
    generalize o.conv (5/100) = f' at *
    generalize o.sub (hi - lo) = d' at *
    have e3 := abs_le.1 (ho.mul.err _ (mul_nonneg n1 n2))
    have n3 := nonneg ho.mul (mul_nonneg n1 n2)
    have q : 4/100 * (9/10 * (hi - lo)) ≤ f' * d' := by
      apply mul_le_mul _ _ (by linarith) n1
      · norm_num at *; linarith [e1.1]
      · norm_num at *; linarith [e2.1]
    have e4 := abs_le.1 (ho.add.err _ (add_nonneg hlo n3))
    generalize o.mul (f' * d') = m at *
    generalize f' * d' = y at *
    generalize o.add (lo + m) = t at *
    generalize hz : hi - lo = z at *
    have hz0 : 0 < z := by rw [← hz]; linarith
    norm_num at *
    linarith [e3.1, e4.1]

/-- C166 fails for equal scores: nothing is drawn. -/
theorem C166_equal_scores (o : Ops) (ho : Good o) (sse : ℕ → ℚ) (K : List ℕ) (lo : ℚ) (h : Scores o sse K lo lo) :
    ∀ x ∈ drawn o sse K, x.2 = [] := by
  have e : ∀ f1 f2, fraction o sse K f1 f2 = [] := by
    intro f1 f2
    rw [List.eq_nil_iff_forall_not_mem]
    intro k hk
    obtain ⟨_, h1, h2⟩ := (mem_fraction h f1 f2 k).1 hk
    rw [threshold_equal ho h.exact] at h1 h2
    exact absurd h2 (not_lt.2 h1)
  intro x hx
  rw [drawn_eq] at hx
  simp only [List.mem_cons, List.not_mem_nil, or_false] at hx
  rcases hx with rfl | rfl | rfl | rfl | rfl <;> exact e _ _

/-- Rounding to float32. -/
def single : Ops := ⟨Single.mag, Single.mag, Single.mag, Single.mag⟩

/-- C166 fails for scores that are very close: of two records with neighbouring float32 scores, the better one has the smallest marker
instead of the largest. -/
theorem C166_close_scores : drawn single (fun k => if k = 0 then 1 else 1 + 1 / 2 ^ 23) [0, 1] =
    [(3, []), (2, []), (3/2, []), (1, []), (1/2, [0])] := by decide +kernel

/-! ## Examples -/

open RatioRounded in
/-- Rounding to the nearest float64. -/
theorem rounds_53 : Rounds round53 where
  mono _ _ h := fl_mono round53_nearest h
  zero := by decide +kernel
  err x hx := by
    have := RelationsRounded.rounding_error_abs round53_nearest x
    rw [abs_of_nonneg hx] at this
    exact this.trans (div_le_div_of_nonneg_left hx (by positivity) (by norm_num))

open RatioRounded (round53) in
/-- All operations in float64. -/
def double : Ops := ⟨round53, round53, round53, round53⟩

theorem double_good : Good double := ⟨rounds_53, rounds_53, rounds_53, rounds_53⟩

theorem demo_scores : Scores double (fun k => k + 1) (List.range 20) 1 20 where
  nodup := List.nodup_range
  first := by decide +kernel
  last := by decide +kernel
  low k _ := by simp
  high k hk := by
    have : (k : ℚ) ≤ 19 := by exact_mod_cast Nat.le_of_lt_succ (List.mem_range.1 hk)
    linarith
  exact := by decide +kernel

theorem demo_equal : Scores double (fun _ => 3) [0, 1] 3 3 where
  nodup := by decide
  first := rfl
  last := rfl
  low _ _ := le_rfl
  high _ _ := le_rfl
  exact := by decide +kernel

example := C166_once double double_good _ _ _ _ demo_scores 4 (by decide)
example := C166_larger_is_better double double_good _ _ _ _ demo_scores 2 1 [1] [4, 5, 6, 7, 8, 9] (by decide +kernel)
  (by decide +kernel) 1 7 (by decide) (by decide) (by norm_num)
example := C166_boundaries double double_good 1 20 (1/5) (by norm_num) (by norm_num) (by norm_num) (by norm_num)
example := C166_best_partial double double_good _ _ _ _ demo_scores (by norm_num) (by norm_num) (by norm_num) 0 (by decide) (by norm_num)
example := C166_equal_scores double double_good _ _ _ demo_equal

end FigureRounded
end Ade
