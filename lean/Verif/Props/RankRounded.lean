import Verif.Model.RankRounded
import Verif.Props.Figures
import Verif.Props.RelationsRounded

/-!
# C167: marker groups by rank with rounding
-/

set_option autoImplicit false

namespace Ade
namespace RankRounded

open RatioRounded (RoundsToNearest round53 round53_nearest fl_mono fl_self)
open RelationsRounded (rounding_error_abs)

/-! ## Lemmas -/

section
variable {fl : ℚ → ℚ} (hfl : RoundsToNearest fl)
include hfl

theorem fl_zero : fl 0 = 0 := fl_self hfl ⟨0, 0, by norm_num, by norm_num⟩

theorem fl_nonneg {x : ℚ} (h : 0 ≤ x) : 0 ≤ fl x := fl_zero hfl ▸ fl_mono hfl h

theorem place_zero (N : ℕ) : place fl N 0 = 0 := by
  rw [place, fl_zero hfl, zero_mul, fl_zero hfl]
  rfl

theorem place_mono (N : ℕ) {p q : ℚ} (h : p ≤ q) : place fl N p ≤ place fl N q := by
  apply Int.toNat_le_toNat
  exact Int.floor_le_floor (fl_mono hfl (mul_le_mul_of_nonneg_right (fl_mono hfl h) (by positivity)))

/-- The product differs little from the exact one. -/
theorem close (N : ℕ) (hN : N < 2 ^ 40) {p : ℚ} (h0 : 0 ≤ p) (h1 : p ≤ 1) : |fl (fl p * N) - p * N| ≤ 1 / 1000 := by
  have hN' : (N : ℚ) ≤ 2 ^ 40 := by exact_mod_cast hN.le
  have n0 : (0 : ℚ) ≤ N := by positivity
  have e1 := rounding_error_abs hfl p
  rw [abs_of_nonneg h0] at e1
  have n1 := fl_nonneg hfl h0
  have e2 := rounding_error_abs hfl (fl p * N)
  rw [abs_of_nonneg (mul_nonneg n1 n0)] at e2
  have e3 : |fl p * N - p * N| ≤ N / 2 ^ 53 := by
    rw [← sub_mul, abs_mul, abs_of_nonneg n0, mul_comm, div_eq_mul_one_div]
    exact mul_le_mul_of_nonneg_left (e1.trans (div_le_div_of_nonneg_right h1 (by positivity))) n0
  have e4 : fl p * N ≤ 2 * 2 ^ 40 := by
    refine mul_le_mul ?_ hN' n0 (by norm_num)
    have := (abs_le.1 e1).2
    norm_num at this
    linarith
  rw [abs_le] at e2 e3 ⊢
  obtain ⟨e2, e2'⟩ := e2
  obtain ⟨e3, e3'⟩ := e3
  clear e1 n1 h0 h1 hN
  generalize fl (fl p * N) = a at *
  generalize fl p * N = b at *
  generalize p * N = c at *
  generalize (N : ℚ) = n at *
  constructor <;> linarith

/-- A place is at least `i` if the exact product is clearly above `i`. -/
theorem le_place {N : ℕ} (hN : N < 2 ^ 40) {p : ℚ} (h0 : 0 ≤ p) (h1 : p ≤ 1) {i : ℕ} (h : (i : ℚ) + 1 / 1000 ≤ p * N) :
    i ≤ place fl N p := by
  have := (abs_le.1 (close hfl N hN h0 h1)).1
  unfold place
  rw [show (fl (fl p * N)).floor = ⌊fl (fl p * N)⌋ from rfl]
  have : (i : ℤ) ≤ ⌊fl (fl p * N)⌋ := Int.le_floor.2 (by push_cast; linarith)
  omega

/-- A place is at most `i` if the exact product is clearly below `i + 1`. -/
theorem place_le {N : ℕ} (hN : N < 2 ^ 40) {p : ℚ} (h0 : 0 ≤ p) (h1 : p ≤ 1) {i : ℕ} (h : p * N + 1 / 1000 < i + 1) :
    place fl N p ≤ i := by
  have := (abs_le.1 (close hfl N hN h0 h1)).2
  unfold place
  rw [show (fl (fl p * N)).floor = ⌊fl (fl p * N)⌋ from rfl]
  have : ⌊fl (fl p * N)⌋ < (i : ℤ) + 1 := Int.floor_lt.2 (by push_cast; linarith)
  omega

/-- Places of numbers with products that are more than one apart are different. -/
theorem place_lt {N : ℕ} (hN : N < 2 ^ 40) {p q : ℚ} (h0 : 0 ≤ p) (h1 : p ≤ 1) (g0 : 0 ≤ q) (g1 : q ≤ 1)
    (h : p * N + 1 + 2 / 1000 ≤ q * N) : place fl N p < place fl N q := by
  have a := (abs_le.1 (close hfl N hN h0 h1)).2
  have b := (abs_le.1 (close hfl N hN g0 g1)).1
  unfold place
  rw [show (fl (fl p * N)).floor = ⌊fl (fl p * N)⌋ from rfl, show (fl (fl q * N)).floor = ⌊fl (fl q * N)⌋ from rfl]
  have n : 0 ≤ ⌊fl (fl p * N)⌋ := Int.floor_nonneg.2 (fl_nonneg hfl (mul_nonneg (fl_nonneg hfl h0) (by positivity)))
  have : ⌊fl (fl p * N)⌋ + 1 ≤ ⌊fl (fl q * N)⌋ := by
    rw [Int.le_floor]
    push_cast
    linarith [Int.floor_le (fl (fl p * N))]
  omega

end

theorem mem_portion (fl : ℚ → ℚ) (K : List ℕ) (hnd : K.Nodup) (p1 p2 : ℚ) (i k : ℕ) (hi : K[i]? = some k) :
    k ∈ portion fl K p1 p2 ↔ place fl K.length p1 ≤ i ∧ i ≤ place fl K.length p2 := by
  obtain ⟨hil, hik⟩ := List.getElem?_eq_some_iff.mp hi
  unfold portion
  generalize place fl K.length p1 = a
  generalize place fl K.length p2 = b
  constructor
  · intro hk
    obtain ⟨j, hj⟩ := List.mem_iff_getElem?.mp hk
    rw [List.getElem?_drop, List.getElem?_take] at hj
    split_ifs at hj with hlt
    obtain ⟨hjl, hjk⟩ := List.getElem?_eq_some_iff.mp hj
    have : a + j = i := (List.Nodup.getElem_inj_iff hnd).mp (hjk.trans hik.symm)
    omega
  · rintro ⟨h1, h2⟩
    apply List.mem_iff_getElem?.mpr
    refine ⟨i - a, ?_⟩
    rw [List.getElem?_drop, List.getElem?_take, show a + (i - a) = i by omega, if_pos (by omega), hi]

theorem drawn_eq (fl : ℚ → ℚ) (K : List ℕ) : drawn fl K =
    [(3, portion fl K 0 (5/100)), (2, portion fl K (5/100) (10/100)), (3/2, portion fl K (10/100) (20/100)),
      (1, portion fl K (20/100) (50/100)), (1/2, portion fl K (50/100) (70/100))] := Figures.marked_eq _

/-! ## Theorems -/

/-- C167: every record with a rank below 70% of their number is drawn. -/
theorem C167_drawn (fl : ℚ → ℚ) (hfl : RoundsToNearest fl) (K : List ℕ) (hnd : K.Nodup) (hN : K.length < 2 ^ 40) (i k : ℕ)
    (hi : K[i]? = some k) (h : 10 * i < 7 * K.length) : ∃ ms G, (ms, G) ∈ drawn fl K ∧ k ∈ G := by
  have h5 : i ≤ place fl K.length (70/100) := by
    apply le_place hfl hN (by norm_num) (by norm_num)
    have : (10 * i + 1 : ℚ) ≤ 7 * K.length := by exact_mod_cast h
    linarith
  have h0 := place_zero hfl K.length
  rw [drawn_eq]
  have hm := fun p1 p2 => mem_portion fl K hnd p1 p2 i k hi
  rcases le_or_gt i (place fl K.length (5/100)) with h1 | h1
  · exact ⟨3, _, by simp, (hm 0 (5/100)).2 ⟨by omega, h1⟩⟩
  rcases le_or_gt i (place fl K.length (10/100)) with h2 | h2
  · exact ⟨2, _, by simp, (hm (5/100) (10/100)).2 ⟨h1.le, h2⟩⟩
  rcases le_or_gt i (place fl K.length (20/100)) with h3 | h3
  · exact ⟨3/2, _, by simp, (hm (10/100) (20/100)).2 ⟨h2.le, h3⟩⟩
  rcases le_or_gt i (place fl K.length (50/100)) with h4 | h4
  · exact ⟨1, _, by simp, (hm (20/100) (50/100)).2 ⟨h3.le, h4⟩⟩
  · exact ⟨1/2, _, by simp, (hm (50/100) (70/100)).2 ⟨h4.le, h5⟩⟩

/-- C167: no record with a rank above 70% is drawn. -/
theorem C167_not_drawn (fl : ℚ → ℚ) (hfl : RoundsToNearest fl) (K : List ℕ) (hnd : K.Nodup) (hN : K.length < 2 ^ 40) (i k : ℕ)
    (hi : K[i]? = some k) (h : 7 * K.length < 10 * i) : ∀ x ∈ drawn fl K, k ∉ x.2 := by
  have h5 : place fl K.length (70/100) < i := by
    obtain ⟨j, rfl⟩ : ∃ j, i = j + 1 := ⟨i - 1, by omega⟩
    apply Nat.lt_succ_of_le
    apply place_le hfl hN (by norm_num) (by norm_num)
    have : (7 * K.length + 1 : ℚ) ≤ 10 * (j + 1) := by exact_mod_cast h
    linarith
  have key : ∀ p1 p2, p2 ≤ 70/100 → k ∉ portion fl K p1 p2 := by
    intro p1 p2 hp hm
    have := ((mem_portion fl K hnd p1 p2 i k hi).1 hm).2
    have := place_mono hfl K.length hp
    omega
  intro x hx
  rw [drawn_eq] at hx
  simp only [List.mem_cons, List.not_mem_nil, or_false] at hx
  rcases hx with rfl | rfl | rfl | rfl | rfl <;> exact key _ _ (by norm_num)

/-- C167: with more than twenty records, no record is drawn more than twice. -/
theorem C167_at_most_twice (fl : ℚ → ℚ) (hfl : RoundsToNearest fl) (K : List ℕ) (hnd : K.Nodup) (hN : K.length < 2 ^ 40)
    (h20 : 20 < K.length) (k : ℕ) : ((drawn fl K).map Prod.snd).flatten.count k ≤ 2 := by
  by_cases hk : k ∈ K
  · obtain ⟨i, hi⟩ := List.mem_iff_getElem?.mp hk
    have hcount : ∀ p1 p2, (portion fl K p1 p2).count k = if place fl K.length p1 ≤ i ∧ i ≤ place fl K.length p2 then 1 else 0 := by
      intro p1 p2
      have hnd' : (portion fl K p1 p2).Nodup := hnd.sublist ((List.drop_sublist _ _).trans (List.take_sublist _ _))
      split_ifs with hc
      · exact List.count_eq_one_of_mem hnd' ((mem_portion fl K hnd p1 p2 i k hi).2 hc)
      · rw [List.count_eq_zero]
        exact fun hm => hc ((mem_portion fl K hnd p1 p2 i k hi).1 hm)
    have h21 : (21 : ℚ) ≤ K.length := by exact_mod_cast h20
    have t2 : place fl K.length (5/100) < place fl K.length (10/100) :=
      place_lt hfl hN (by norm_num) (by norm_num) (by norm_num) (by norm_num) (by linarith)
    have t3 : place fl K.length (10/100) < place fl K.length (20/100) :=
      place_lt hfl hN (by norm_num) (by norm_num) (by norm_num) (by norm_num) (by linarith)
    have t4 : place fl K.length (20/100) < place fl K.length (50/100) :=
      place_lt hfl hN (by norm_num) (by norm_num) (by norm_num) (by norm_num) (by linarith)
    rw [drawn_eq]
    simp only [List.map_cons, List.map_nil, List.flatten_cons, List.flatten_nil, List.append_nil, List.count_append, hcount]
    generalize place fl K.length 0 = a0 at *
    generalize place fl K.length (5/100) = a1 at *
    generalize place fl K.length (10/100) = a2 at *
    generalize place fl K.length (20/100) = a3 at *
    generalize place fl K.length (50/100) = a4 at *
    generalize place fl K.length (70/100) = a5 at *
    split_ifs <;> omega
  · rw [List.count_eq_zero.2]
    · omega
    · rw [drawn_eq]
      intro hm
      have hsub : ∀ p1 p2, k ∉ portion fl K p1 p2 := fun p1 p2 hp =>
        hk (List.mem_of_mem_take (List.mem_of_mem_drop hp))
      simp [hsub] at hm

/-- C167: a single record is drawn five times, once with every marker size. -/
theorem C167_single (fl : ℚ → ℚ) (hfl : RoundsToNearest fl) (k : ℕ) :
    drawn fl [k] = [(3, [k]), (2, [k]), (3/2, [k]), (1, [k]), (1/2, [k])] := by
  have h : ∀ p : ℚ, 0 ≤ p → p ≤ 7/10 → place fl 1 p = 0 := fun p h0 h1 =>
    Nat.le_zero.1 (place_le hfl (by norm_num) h0 (by linarith) (by push_cast; linarith))
  have g : ∀ p1 p2 : ℚ, 0 ≤ p1 → p1 ≤ 7/10 → 0 ≤ p2 → p2 ≤ 7/10 → portion fl [k] p1 p2 = [k] := by
    intro p1 p2 a b c d
    rw [portion, List.length_singleton, h p1 a b, h p2 c d]
    rfl
  rw [drawn_eq, g, g, g, g, g] <;> norm_num

/-- C167: of two records drawn with different marker sizes, the one with the larger marker does not come later. -/
theorem C167_larger_is_earlier (fl : ℚ → ℚ) (hfl : RoundsToNearest fl) (K : List ℕ) (hnd : K.Nodup) (ms ms' : ℚ) (G G' : List ℕ)
    (hG : (ms, G) ∈ drawn fl K) (hG' : (ms', G') ∈ drawn fl K) (i i' k k' : ℕ) (hi : K[i]? = some k) (hi' : K[i']? = some k')
    (hk : k ∈ G) (hk' : k' ∈ G') (hms : ms' < ms) : i ≤ i' := by
  have key : ∀ f1 f2 g1 g2, f2 ≤ g1 → k ∈ portion fl K f1 f2 → k' ∈ portion fl K g1 g2 → i ≤ i' := by
    intro f1 f2 g1 g2 hfg a b
    have a' := ((mem_portion fl K hnd f1 f2 i k hi).1 a).2
    have b' := ((mem_portion fl K hnd g1 g2 i' k' hi').1 b).1
    have := place_mono hfl K.length hfg
    omega
  rw [drawn_eq] at hG hG'
  simp only [List.mem_cons, Prod.mk.injEq, List.not_mem_nil, or_false] at hG hG'
  rcases hG with ⟨rfl, rfl⟩ | ⟨rfl, rfl⟩ | ⟨rfl, rfl⟩ | ⟨rfl, rfl⟩ | ⟨rfl, rfl⟩ <;>
  rcases hG' with ⟨rfl, rfl⟩ | ⟨rfl, rfl⟩ | ⟨rfl, rfl⟩ | ⟨rfl, rfl⟩ | ⟨rfl, rfl⟩ <;>
  first
  | (refine absurd hms ?_; norm_num; done)
  | (refine key _ _ _ _ ?_ hk hk'; norm_num)

/-- C167: the records for the line are exactly the better half, the first `N/2 + 1`: no rounding takes place. -/
theorem C167_half (fl : ℚ → ℚ) (hfl : RoundsToNearest fl) (K : List ℕ) (hN : K.length < 2 ^ 53) :
    portion fl K 0 (1/2) = K.take (K.length / 2 + 1) := by
  have h1 : fl (1/2) = 1/2 := fl_self hfl ⟨1, -1, by norm_num, by norm_num⟩
  have h2 : fl (1/2 * K.length) = 1/2 * K.length := by
    refine fl_self hfl ⟨K.length, -1, ?_, ?_⟩
    · rw [abs_of_nonneg (by positivity)]
      exact_mod_cast hN
    · rw [zpow_neg_one]
      push_cast
      ring
  have h3 : place fl K.length (1/2) = K.length / 2 := by
    rw [place, h1, h2, show (1/2 * (K.length : ℚ)).floor = ⌊1/2 * (K.length : ℚ)⌋ from rfl]
    have : ⌊1/2 * (K.length : ℚ)⌋ = ((K.length / 2 : ℕ) : ℤ) := by
      rw [Int.floor_eq_iff]
      have a : 2 * (K.length / 2) ≤ K.length := by omega
      have b : K.length < 2 * (K.length / 2) + 2 := by omega
      have a' : (2 * (K.length / 2 : ℕ) : ℚ) ≤ K.length := by exact_mod_cast a
      have b' : (K.length : ℚ) < 2 * (K.length / 2 : ℕ) + 2 := by exact_mod_cast b
      rw [Int.cast_natCast]
      constructor <;> linarith
    omega
  rw [portion, place_zero hfl, h3, List.drop_zero]

/-- At exactly 70% it depends on rounding: of ten records the eighth is drawn, of ninety the 64th is not, as `0.7*90` is
`62.99999999999999` in floating-point arithmetic. -/
theorem C167_at_seventy_percent : place round53 10 (70/100) = 7 ∧ place round53 90 (70/100) = 62 := by decide +kernel

example := C167_drawn round53 round53_nearest (List.range 90) List.nodup_range (by simp) 62 62 (by decide) (by simp)
example := C167_not_drawn round53 round53_nearest (List.range 90) List.nodup_range (by simp) 64 64 (by decide) (by simp)
example := C167_at_most_twice round53 round53_nearest (List.range 90) List.nodup_range (by simp) (by simp) 4
example := C167_single round53 round53_nearest 7
example := C167_larger_is_earlier round53 round53_nearest (List.range 20) List.nodup_range 2 1 [1, 2] [4, 5, 6, 7, 8, 9, 10]
  (by decide +kernel) (by decide +kernel) 1 7 1 7 (by decide) (by decide) (by decide) (by decide) (by norm_num)
example := C167_half round53 round53_nearest (List.range 9) (by simp)
/-- Twenty records: some are drawn twice. -/
example : drawn round53 (List.range 20) = [(3, [0, 1]), (2, [1, 2]), (3/2, [2, 3, 4]), (1, [4, 5, 6, 7, 8, 9, 10]),
    (1/2, [10, 11, 12, 13, 14])] := by decide +kernel

end RankRounded
end Ade
