import Verif.Lemmas.Cases
import Verif.Model.Reporter
import Mathlib.Tactic.Linarith
import Mathlib.Tactic.Push
import Mathlib.Tactic.FieldSimp
import Mathlib.Algebra.Order.Floor.Ring

/-!
# Reports: ratio and best individual (C46, C47, C49)
-/

set_option autoImplicit false

namespace Ade
namespace Reporter

/-! ## C47: the ratio of a report -/

/-- A whole number nearest to `x`. -/
def Nearest (r : ℕ) (x : ℚ) : Prop := |(r : ℚ) - x| ≤ 1 / 2

theorem floor_cast {x : ℚ} (hx : 0 ≤ x) : ((⌊x⌋.toNat : ℕ) : ℚ) = (⌊x⌋ : ℚ) := by
  have h : (0 : ℤ) ≤ ⌊x⌋ := Int.floor_nonneg.2 hx
  have := Int.toNat_of_nonneg h
  exact_mod_cast this

theorem round_nearest {x : ℚ} (hx : 0 ≤ x) : Nearest (roundHalfEven x) x := by
  have h1 := Int.floor_le x
  have h2 := Int.lt_floor_add_one x
  have hc := floor_cast hx
  unfold Nearest roundHalfEven
  simp only
  rw [abs_le]
  split_ifs with ha hb hd <;> push_cast <;> rw [hc] at * <;> constructor <;> linarith

theorem round_mono {x y : ℚ} (hx : 0 ≤ x) (hxy : x ≤ y) : roundHalfEven x ≤ roundHalfEven y := by
  have hy := hx.trans hxy
  have hle : ⌊x⌋.toNat ≤ ⌊y⌋.toNat := Int.toNat_le_toNat (Int.floor_le_floor hxy)
  rcases Nat.lt_or_eq_of_le hle with hlt | heq
  · have a : roundHalfEven x ≤ ⌊x⌋.toNat + 1 := by
      unfold roundHalfEven; simp only; split_ifs <;> omega
    have b : ⌊y⌋.toNat ≤ roundHalfEven y := by
      unfold roundHalfEven; simp only; split_ifs <;> omega
    omega
  · unfold roundHalfEven
    simp only
    rw [← heq]
    generalize ((⌊x⌋.toNat : ℕ) : ℚ) = f
    split_ifs <;> first | omega | (exfalso; linarith)

theorem round_pos {x : ℚ} (hx : 1 ≤ x) : 1 ≤ roundHalfEven x := by
  have h := round_mono (zero_le_one) hx
  have : roundHalfEven 1 = 1 := by decide +kernel
  omega

/-- An individual with a usable score. -/
def Scored (i : Individual) (a : ℚ) : Prop := i.stored = some (.fin a) ∧ 0 ≤ a

theorem Scored.SSE {i : Individual} {a : ℚ} (h : Scored i a) : i.SSE = .fin a := by
  obtain ⟨h1, h2⟩ := h
  simp only [Individual.SSE, h1, PyFloat.lt, PyFloat.zero, decide_eq_true_eq]
  rw [if_neg (by linarith)]

theorem Scored.toBool {i : Individual} {a : ℚ} (h : Scored i a) : i.toBool = true := by
  obtain ⟨h1, h2⟩ := h
  rcases h2.lt_or_eq with h3 | h3
  · simp [Individual.toBool, h1, PyFloat.isNaN, PyFloat.le, PyFloat.lt, PyFloat.zero, h3]
  · simp [Individual.toBool, h1, PyFloat.isNaN, PyFloat.le, PyFloat.lt, PyFloat.eq, PyFloat.zero, h3]

theorem Scored.toFloat {i : Individual} {a : ℚ} (h : Scored i a) : i.toFloat = .fin a := by
  have := h.2
  simp only [Individual.toFloat, h.SSE, PyFloat.lt, PyFloat.zero, decide_eq_true_eq]
  rw [if_neg (by linarith)]

theorem Scored.lt {i j : Individual} {a b : ℚ} (hi : Scored i a) (hj : Scored j b) :
    i.lt j = decide (a < b) := by
  simp only [Individual.lt, hi.toFloat, hj.toFloat, PyFloat.lt]

theorem equivSSE_iff {a b : ℚ} (ha : 0 < a) (hba : b ≤ a) :
    equivSSE (.fin b) (.fin a) = true ↔ a - b < a / 50 := by
  simp only [equivSSE, ha.ne', if_false, decide_eq_true_eq]
  have h1 : b / a - 1 ≤ 0 := by
    have : b / a ≤ 1 := (div_le_one ha).2 hba
    linarith
  rw [abs_of_nonpos h1]
  have h2 : -(b / a - 1) = (a - b) / a := by field_simp; ring
  rw [h2, div_lt_iff₀ ha]
  constructor <;> intro h <;> linarith

/-- The ratio and character for usable scores. -/
theorem msgRatio_scored {old new : Individual} {a b : ℚ} (ho : Scored old a) (hn : Scored new b)
    (c : Char) :
    msgRatio old new c =
      if a < b then (none, 'X')
      else if equivSSE (.fin b) (.fin a) then (some 0, '0')
      else
        (some (if b = 0 then 1000 else roundHalfEven (a / b)),
          if (if b = 0 then 1000 else roundHalfEven (a / b)) < 10
          then Nat.digitChar (if b = 0 then 1000 else roundHalfEven (a / b)) else '9') := by
  simp only [msgRatio, ho.toBool, hn.toBool, bogus, ho.SSE, hn.SSE, PyFloat.isNaN, PyFloat.isInf,
    ho.lt hn, Bool.not_true, Bool.or_false, Bool.false_eq_true, if_false, decide_eq_true_eq]

/-- C47: the ratio is missing exactly when the old individual is strictly better. -/
theorem C47_none_iff {old new : Individual} {a b : ℚ} (ho : Scored old a) (hn : Scored new b)
    (c : Char) : (msgRatio old new c).1 = none ↔ a < b := by
  rw [msgRatio_scored ho hn]
  split_ifs <;> simp_all

example := C47_none_iff (old := ⟨some (.fin 7), [1]⟩) (new := ⟨some (.fin 2), [1]⟩) (a := 7) (b := 2)
  ⟨rfl, by norm_num⟩ ⟨rfl, by norm_num⟩ '!'

/-- C47: unless the old score is already zero, the ratio is zero exactly when the new score is an
improvement of less than two percent (or none). -/
theorem C47_zero_iff_partial {old new : Individual} {a b : ℚ} (ho : Scored old a)
    (hn : Scored new b) (ha : 0 < a) (c : Char) :
    (msgRatio old new c).1 = some 0 ↔ b ≤ a ∧ a - b < a / 50 := by
  rw [msgRatio_scored ho hn]
  by_cases h1 : a < b
  · rw [if_pos h1]; simp; intro h; linarith
  · push Not at h1
    rw [if_neg (not_lt.2 h1)]
    by_cases h2 : equivSSE (.fin b) (.fin a) = true
    · rw [if_pos h2]
      simpa [h1] using (equivSSE_iff ha h1).1 h2
    · rw [if_neg h2]
      have h3 : ¬ a - b < a / 50 := fun h => h2 ((equivSSE_iff ha h1).2 h)
      simp only [h1, h3, and_false, iff_false, Option.some.injEq]
      by_cases hb : b = 0
      · simp [hb]
      · rw [if_neg hb]
        have hb' : 0 < b := lt_of_le_of_ne hn.2 (Ne.symm hb)
        have := round_pos ((one_le_div hb').2 h1)
        omega

example := C47_zero_iff_partial (old := ⟨some (.fin 7), [1]⟩) (new := ⟨some (.fin 2), [1]⟩) (a := 7) (b := 2)
  ⟨rfl, by norm_num⟩ ⟨rfl, by norm_num⟩ (by norm_num) '!'

/-- C47: for an improvement of at least two percent to a positive score, the ratio is the whole
number nearest to the quotient of the scores, and at least one. -/
theorem C47_nearest {old new : Individual} {a b : ℚ} (ho : Scored old a) (hn : Scored new b)
    (hb : 0 < b) (hba : a / 50 ≤ a - b) (c : Char) :
    ∃ r : ℕ, (msgRatio old new c).1 = some r ∧ 1 ≤ r ∧ Nearest r (a / b) := by
  have h1 : b ≤ a := by have := ho.2; linarith
  have ha : 0 < a := hb.trans_le h1
  have h2 : ¬ equivSSE (.fin b) (.fin a) = true := fun h => by
    have := (equivSSE_iff ha h1).1 h; linarith
  refine ⟨roundHalfEven (a / b), ?_, round_pos ((one_le_div hb).2 h1),
    round_nearest (div_nonneg ha.le hb.le)⟩
  rw [msgRatio_scored ho hn, if_neg (not_lt.2 h1), if_neg h2, if_neg hb.ne']

example := C47_nearest (old := ⟨some (.fin 7), [1]⟩) (new := ⟨some (.fin 2), [1]⟩) (a := 7) (b := 2)
  ⟨rfl, by norm_num⟩ ⟨rfl, by norm_num⟩ (by norm_num) (by norm_num) '!'

/-- C47: a quotient halfway between two whole numbers gives the even one of them. -/
theorem C47_halfway {old new : Individual} {a b : ℚ} (ho : Scored old a) (hn : Scored new b)
    (hb : 0 < b) (k : ℕ) (hk : 1 ≤ k) (hab : a / b = k + 1 / 2) (c : Char) :
    ∃ r : ℕ, (msgRatio old new c).1 = some r ∧ Even r ∧ (r = k ∨ r = k + 1) := by
  have hk' : (1 : ℚ) ≤ k := by exact_mod_cast hk
  have hm : a = (k + 1 / 2) * b := (div_eq_iff hb.ne').1 hab
  have h1 : b ≤ a := by rw [hm]; nlinarith
  have ha : 0 < a := hb.trans_le h1
  have h2 : ¬ equivSSE (.fin b) (.fin a) = true := fun h => by
    have := (equivSSE_iff ha h1).1 h
    rw [hm] at this
    nlinarith
  have hf : ⌊(k : ℚ) + 1 / 2⌋.toNat = k := by
    have : ⌊(k : ℚ) + 1 / 2⌋ = (k : ℤ) := by
      rw [Int.floor_eq_iff]
      constructor <;> push_cast <;> linarith
    rw [this, Int.toNat_natCast]
  have hr : roundHalfEven (a / b) = if k % 2 = 0 then k else k + 1 := by
    rw [hab]
    unfold roundHalfEven
    simp only [hf]
    rw [if_neg (by linarith), if_neg (by linarith)]
  refine ⟨roundHalfEven (a / b), ?_, ?_, ?_⟩
  · rw [msgRatio_scored ho hn, if_neg (not_lt.2 h1), if_neg h2, if_neg hb.ne']
  · rw [hr]
    split_ifs with h
    · exact Nat.even_iff.2 h
    · exact Nat.even_iff.2 (by omega)
  · rw [hr]
    split_ifs <;> simp

example := C47_halfway (old := ⟨some (.fin 7), [1]⟩) (new := ⟨some (.fin 2), [1]⟩) (a := 7) (b := 2)
  ⟨rfl, by norm_num⟩ ⟨rfl, by norm_num⟩ (by norm_num) 3 (by norm_num) (by norm_num) '!'

/-- C47: a smaller positive score of the new individual never gives a smaller ratio. -/
theorem C47_monotone_partial {old new new' : Individual} {a b b' : ℚ} {r r' : ℕ}
    (ho : Scored old a) (hn : Scored new b) (hn' : Scored new' b') (hb' : 0 < b') (hle : b' ≤ b)
    (c c' : Char) (hr : (msgRatio old new c).1 = some r) (hr' : (msgRatio old new' c').1 = some r') :
    r ≤ r' := by
  have hb : 0 < b := hb'.trans_le hle
  have h1 : b ≤ a := by
    by_contra h
    rw [(C47_none_iff ho hn c).2 (not_le.1 h)] at hr
    exact absurd hr (by simp)
  have ha : 0 < a := hb.trans_le h1
  rw [msgRatio_scored ho hn, if_neg (not_lt.2 h1), if_neg hb.ne'] at hr
  rw [msgRatio_scored ho hn', if_neg (not_lt.2 (hle.trans h1)), if_neg hb'.ne'] at hr'
  by_cases h2 : equivSSE (.fin b) (.fin a) = true
  · rw [if_pos h2] at hr; simp at hr; omega
  · rw [if_neg h2] at hr
    have h3 : ¬ equivSSE (.fin b') (.fin a) = true := fun h => h2 <| by
      have := (equivSSE_iff ha (hle.trans h1)).1 h
      exact (equivSSE_iff ha h1).2 (by linarith)
    rw [if_neg h3] at hr'
    simp only [Option.some.injEq] at hr hr'
    rw [← hr, ← hr']
    exact round_mono (div_nonneg ha.le hb.le) (div_le_div_of_nonneg_left ha.le hb' hle)

example := C47_monotone_partial (old := ⟨some (.fin 7), [1]⟩) (new := ⟨some (.fin 4), [1]⟩)
  (new' := ⟨some (.fin 2), [1]⟩) (a := 7) (b := 4) (b' := 2) (r := 2) (r' := 4)
  ⟨rfl, by norm_num⟩ ⟨rfl, by norm_num⟩ ⟨rfl, by norm_num⟩ (by norm_num) (by norm_num) '!' '!' (by decide +kernel)
  (by decide +kernel)

/-- C47: the progress character for usable scores, `X` for a failed challenge, else the ratio cut
at nine. -/
theorem C47_character {old new : Individual} {a b : ℚ} (ho : Scored old a) (hn : Scored new b)
    (c : Char) :
    (msgRatio old new c).2 = match (msgRatio old new c).1 with
      | none => 'X'
      | some r => Nat.digitChar (min r 9) := by
  rw [msgRatio_scored ho hn]
  split_ifs with h1 h2 h3 h4 h4
  · rfl
  · rfl
  · omega
  · rfl
  · simp only; rw [min_eq_left (by omega)]
  · simp only; rw [min_eq_right (by omega)]; rfl

example : Scored ⟨some (.fin 7), [1]⟩ 7 ∧ Scored ⟨some (.fin 2), [1]⟩ 2 ∧
    msgRatio ⟨some (.fin 7), [1]⟩ ⟨some (.fin 2), [1]⟩ '!' = (some 4, '4') ∧
    msgRatio ⟨some (.fin 5), [1]⟩ ⟨some (.fin 2), [1]⟩ '!' = (some 2, '2') ∧
    msgRatio ⟨some (.fin 2), [1]⟩ ⟨some (.fin 7), [1]⟩ '!' = (none, 'X') :=
  ⟨⟨rfl, by norm_num⟩, ⟨rfl, by norm_num⟩, by decide +kernel, by decide +kernel, by decide +kernel⟩

/-- C47 fails for perfect scores: a tie of two zero scores gives the ratio 1000. -/
theorem C47_zero_tie {old new : Individual} (ho : Scored old 0) (hn : Scored new 0) (c : Char) :
    msgRatio old new c = (some 1000, '9') := by
  rw [msgRatio_scored ho hn]
  simp [equivSSE]

example : Scored ⟨some (.fin 0), [1]⟩ 0 := ⟨rfl, le_refl _⟩

/-- C47 fails for perfect scores: a perfect score can give a smaller ratio than a tiny one. -/
theorem C47_perfect_score_smaller_ratio :
    (msgRatio ⟨some (.fin 1), []⟩ ⟨some (.fin (1 / 1000000)), []⟩ '!').1 = some 1000000 ∧
    (msgRatio ⟨some (.fin 1), []⟩ ⟨some (.fin 0), []⟩ '!').1 = some 1000 := by
  decide +kernel

/-- C47 fails for unusable scores: a challenger whose score is NaN or infinite counts as an
equivalent one, not as a failed one. -/
theorem C47_bogus_challenger {old new : Individual} {a : ℚ} (ho : Scored old a)
    (hn : new.stored = some .nan ∨ new.stored = some .pinf) (c : Char) :
    msgRatio old new c = (some 0, '#') := by
  have hb : new.toBool = true ∧ bogus new = true := by
    rcases hn with h | h <;> simp [Individual.toBool, bogus, Individual.SSE, h] <;> decide
  have ho' : bogus old = false := by simp [bogus, ho.SSE, PyFloat.isNaN, PyFloat.isInf]
  simp [msgRatio, ho.toBool, hb.1, hb.2, ho']

example : (⟨some .nan, [1]⟩ : Individual).stored = some .nan := rfl

/-- C47: replacing an individual whose score is NaN or infinite by one with a usable score gives the
ratio 1000 and the character asked for; two individuals with unusable scores count as equivalent. -/
theorem C47_bogus_old {old new : Individual} (ho : old.stored = some .nan ∨ old.stored = some .pinf)
    (c : Char) : (∀ b : ℚ, Scored new b → msgRatio old new c = (some 1000, c)) ∧
      (new.stored = some .nan ∨ new.stored = some .pinf → msgRatio old new c = (some 0, '%')) := by
  have hb : ∀ i : Individual, i.stored = some .nan ∨ i.stored = some .pinf →
      i.toBool = true ∧ bogus i = true := by
    intro i hi
    rcases hi with h | h <;> simp [Individual.toBool, bogus, Individual.SSE, h] <;> decide
  have ho' := hb old ho
  constructor
  · intro b hn
    have hn' : bogus new = false := by simp [bogus, hn.SSE, PyFloat.isNaN, PyFloat.isInf]
    simp [msgRatio, ho'.1, ho'.2, hn.toBool, hn']
  · intro hn
    have hn' := hb new hn
    simp [msgRatio, ho'.1, ho'.2, hn'.1, hn'.2]

example : msgRatio ⟨some .pinf, [1]⟩ ⟨some (.fin 2), [1]⟩ '!' = (some 1000, '!') := by decide +kernel

/-- C47: the examples in the documentation of `msgRatio`, as far as they are right: for a challenger with
the score 100, a target at 100 to 100.9 gives 0, one at 102.05 to 149.9 gives 1, and one at 150 to 249.9
gives 2. The documentation has 1 from 101.1 on. -/
theorem C47_documented_partial {old new : Individual} {x : ℚ} (ho : Scored old x) (hn : Scored new 100)
    (c : Char) :
    (100 ≤ x → x ≤ 100.9 → (msgRatio old new c).1 = some 0) ∧
    (102.05 ≤ x → x ≤ 149.9 → (msgRatio old new c).1 = some 1) ∧
    (150 ≤ x → x ≤ 249.9 → (msgRatio old new c).1 = some 2) := by
  have near : ∀ {r k : ℕ} {y : ℚ}, Nearest r y → (k : ℚ) - 1 / 2 < y → y < k + 1 / 2 → r = k := by
    intro r k y h h1 h2
    unfold Nearest at h
    rw [abs_le] at h
    have h3 : (r : ℚ) < k + 1 := by linarith [h.2]
    have h4 : (k : ℚ) < r + 1 := by linarith [h.1]
    have h5 : r < k + 1 := by exact_mod_cast h3
    have h6 : k < r + 1 := by exact_mod_cast h4
    omega
  refine ⟨fun h1 h2 => ?_, fun h1 h2 => ?_, fun h1 h2 => ?_⟩
  · rw [C47_zero_iff_partial ho hn (by linarith)]
    norm_num at h2
    constructor <;> linarith
  · norm_num at h1 h2
    obtain ⟨r, h3, -, h4⟩ := C47_nearest ho hn (by norm_num) (by linarith) c
    rw [h3, near h4 (k := 1) (by rw [lt_div_iff₀ (by norm_num)]; norm_num; linarith)
      (by rw [div_lt_iff₀ (by norm_num)]; norm_num; linarith)]
  · norm_num at h2
    rcases h1.eq_or_lt with rfl | h1
    · obtain ⟨r, h3, h4, h5⟩ := C47_halfway ho hn (by norm_num) 1 le_rfl (by norm_num) c
      rcases h5 with rfl | rfl
      · exact absurd h4 (by decide)
      · exact h3
    · obtain ⟨r, h3, -, h4⟩ := C47_nearest ho hn (by norm_num) (by linarith) c
      rw [h3, near h4 (k := 2) (by rw [lt_div_iff₀ (by norm_num)]; norm_num; linarith)
        (by rw [div_lt_iff₀ (by norm_num)]; norm_num; linarith)]

/-- C47: the rest of the documented example is wrong: a target at 101.1 to 102 gives 0, not 1. -/
theorem C47_documented_wrong {old new : Individual} {x : ℚ} (ho : Scored old x) (hn : Scored new 100)
    (h1 : 101.1 ≤ x) (h2 : x ≤ 102) (c : Char) : (msgRatio old new c).1 = some 0 := by
  norm_num at h1
  rw [C47_zero_iff_partial ho hn (by linarith)]
  constructor <;> linarith

example := C47_documented_wrong (old := ⟨some (.fin 101.5), [1]⟩) (new := ⟨some (.fin 100), [1]⟩)
  ⟨rfl, by norm_num⟩ ⟨rfl, by norm_num⟩ (by norm_num) (by norm_num) '!'
example := (C47_documented_partial (old := ⟨some (.fin 150), [1]⟩) (new := ⟨some (.fin 100), [1]⟩)
  ⟨rfl, by norm_num⟩ ⟨rfl, by norm_num⟩ '!').2.2 (by norm_num) (by norm_num)

/-! ## C46: the remembered best -/

theorem whileLoop_best (n : ℕ) (s : St) : (whileLoop n s).iBest = s.iBest := by
  unfold whileLoop
  cases s.bag
  · rfl
  · simp only
    split_ifs <;> rfl

theorem whileLoop_store (n : ℕ) (s : St) : (whileLoop n s).store = s.store := by
  unfold whileLoop
  cases s.bag
  · rfl
  · simp only
    split_ifs <;> rfl

theorem forLoop_best (n : ℕ) (s : St) (i k : ℕ) : (forLoop n s i k).iBest = s.iBest := by
  unfold forLoop
  split_ifs <;> first | exact whileLoop_best n s | rfl

theorem forLoop_store (n : ℕ) (s : St) (i k : ℕ) : (forLoop n s i k).store = s.store := by
  unfold forLoop
  split_ifs <;> first | exact whileLoop_store n s | rfl

theorem runCallbacks_best (n : ℕ) (s : St) (i : ℕ) (p : Option ℕ) :
    (runCallbacks n s i p).iBest = s.iBest := by
  unfold runCallbacks
  simp only
  split_ifs
  · exact whileLoop_best n _
  · rfl

theorem runCallbacks_store (n : ℕ) (s : St) (i : ℕ) (p : Option ℕ) :
    (runCallbacks n s i p).store = s.store := by
  unfold runCallbacks
  simp only
  split_ifs
  · exact whileLoop_store n _
  · rfl

theorem newBest_best (n : ℕ) (s : St) (i : ℕ) (f : Bool) :
    (newBest n s i f).iBest = if better s i then some i else s.iBest := by
  unfold newBest
  simp only
  cases better s i <;> split_ifs <;> simp_all [runCallbacks_best]

theorem newBest_store (n : ℕ) (s : St) (i : ℕ) (f : Bool) : (newBest n s i f).store = s.store := by
  unfold newBest
  simp only
  cases better s i <;> split_ifs <;> simp_all [runCallbacks_store]

theorem put_best (s : St) (np : Bool) (c : Char) : (put s np c).iBest = s.iBest := by
  unfold put; split_ifs <;> rfl

theorem put_store (s : St) (np : Bool) (c : Char) : (put s np c).store = s.store := by
  unfold put; split_ifs <;> rfl

theorem put_better (s : St) (np : Bool) (c : Char) (i : ℕ) : better (put s np c) i = better s i := by
  unfold better; rw [put_best, put_store]

theorem call_store (n : ℕ) (s : St) (i : ℕ) (o : Option ℕ) (np f : Bool) :
    (call n s i o np f).1.store = s.store := by
  unfold call
  cases o with
  | none =>
    cases s.iBest <;> simp only <;> split_ifs <;> simp only [put_store, newBest_store]
  | some o =>
    simp only
    split_ifs <;> simp only [put_store, newBest_store]

theorem call_best (n : ℕ) (s : St) (i : ℕ) (o : Option ℕ) (np f : Bool) :
    (call n s i o np f).1.iBest =
      if better s i && (o.isSome || (s.store i).toBool) then some i else s.iBest := by
  unfold call
  cases o with
  | none =>
    cases hb : (s.store i).toBool
    · simp [put_best]
    · cases h : s.iBest with
      | none => simp [put_best, newBest_best, better, h]
      | some b =>
        simp only [Bool.not_true, Bool.false_eq_true, if_false]
        split_ifs with h1 h2 h2
        · simp_all [put_best, newBest_best]
        · simp_all [put_best, newBest_best]
        · simp_all [better]
        · simp_all [put_best]
  | some o =>
    simp only [put_better]
    split_ifs <;> simp_all [put_best, newBest_best, put_better]

theorem report_store (n : ℕ) (s : St) (i : ℕ) (o : Option ℕ) (np f : Bool) :
    (report n s i o np f).1.store = s.store := by
  unfold report
  split_ifs
  · rfl
  · simp only
    split <;> exact call_store n s i o np f

theorem report_best (n : ℕ) (s : St) (i : ℕ) (o : Option ℕ) (np f : Bool) :
    (report n s i o np f).1.iBest =
      if s.running && (better s i && (o.isSome || (s.store i).toBool)) then some i
      else s.iBest := by
  unfold report
  cases hr : s.running
  · simp
  · simp only [Bool.not_true, Bool.false_eq_true, if_false, Bool.true_and]
    split <;> exact call_best n s i o np f

/-- C46: reporting an individual that is not better than the remembered best never changes the
remembered best, forced or not. -/
theorem C46_no_better_no_change (n : ℕ) (s : St) (i b : ℕ) (o : Option ℕ) (np f : Bool)
    (hb : s.iBest = some b) (h : (s.store i).lt (s.store b) = false) :
    (report n s i o np f).1.iBest = some b := by
  rw [report_best, ← hb]
  simp [better, hb, h]

theorem lt_irrefl (i : Individual) : i.lt i = false := by
  unfold Individual.lt
  cases i.toFloat <;> simp [PyFloat.lt]

theorem lt_trans {i j k : Individual} (h1 : i.lt j = true) (h2 : j.lt k = true) :
    i.lt k = true := by
  unfold Individual.lt at *
  revert h1 h2
  cases i.toFloat <;> cases j.toFloat <;> cases k.toFloat <;> simp [PyFloat.lt]
  exact fun h1 h2 => h1.trans h2

/-- Remembered best exists and is no worse than `j`. -/
def NoWorse (s : St) (j : ℕ) : Prop := ∃ b, s.iBest = some b ∧ (s.store j).lt (s.store b) = false

theorem noWorse_of {s s' : St} {j i : ℕ} {c : Bool} (hst : s'.store = s.store)
    (hb : s'.iBest = if better s i && c then some i else s.iBest) (h : NoWorse s j) :
    NoWorse s' j := by
  obtain ⟨b, h1, h2⟩ := h
  unfold NoWorse
  rw [hst, hb]
  split_ifs with hc
  · refine ⟨i, rfl, ?_⟩
    by_contra h3
    have h4 : (s.store i).lt (s.store b) = true := by simp_all [better]
    rw [lt_trans (by simpa using h3) h4] at h2
    exact absurd h2 (by simp)
  · exact ⟨b, h1, h2⟩

theorem step_noWorse (n : ℕ) (s s' : St) (e : Event) (j : ℕ) (he : e ≠ .handled true)
    (hs : step n s e = some s') (h : NoWorse s j) : s'.store = s.store ∧ NoWorse s' j := by
  have keep : ∀ t : St, t.store = s.store → t.iBest = s.iBest → t.store = s.store ∧ NoWorse t j := by
    intro t h1 h2
    exact ⟨h1, by unfold NoWorse; rw [h1, h2]; exact h⟩
  cases e with
  | report i o np f =>
    simp only [step, Option.some.injEq] at hs
    subst hs
    refine ⟨report_store n s i o np f, noWorse_of (i := i)
      (c := s.running && (o.isSome || (s.store i).toBool)) (report_store n s i o np f) ?_ h⟩
    rw [report_best]
    congr 1
    cases s.running <;> cases better s i <;> simp
  | returned r =>
    simp only [step] at hs
    cases hp : s.phase with
    | calling i k =>
      simp only [hp] at hs
      cases r with
      | nothing =>
        simp only [Option.some.injEq] at hs; subst hs
        exact keep _ (forLoop_store _ _ _ _) (forLoop_best _ _ _ _)
      | complaint =>
        simp only at hs
        split_ifs at hs <;> simp only [Option.some.injEq] at hs <;> subst hs
        · exact keep _ rfl rfl
        · exact keep _ (forLoop_store _ _ _ _) (forLoop_best _ _ _ _)
      | failure =>
        simp only [Option.some.injEq] at hs; subst hs
        exact keep _ (whileLoop_store _ _) (whileLoop_best _ _)
    | idle => simp [hp] at hs
    | complaining i k => simp [hp] at hs
    | dead => simp [hp] at hs
  | handled ok =>
    cases ok with
    | true => exact absurd rfl he
    | false =>
      simp only [step] at hs
      cases hp : s.phase with
      | complaining i k =>
        simp only [hp, Bool.false_eq_true, if_false, Option.some.injEq] at hs
        subst hs
        exact keep _ rfl rfl
      | idle => simp [hp] at hs
      | calling i k => simp [hp] at hs
      | dead => simp [hp] at hs
  | abort =>
    simp only [step, Option.some.injEq] at hs
    subst hs
    exact keep _ rfl rfl

theorem run_noWorse (n : ℕ) (es : List Event) : ∀ (s s' : St) (j : ℕ),
    (∀ e ∈ es, e ≠ .handled true) → run n s es = some s' → NoWorse s j → NoWorse s' j := by
  induction es with
  | nil =>
    intro s s' j _ hs h
    simp only [run, Option.some.injEq] at hs
    exact hs ▸ h
  | cons e es ih =>
    intro s s' j he hs h
    simp only [run] at hs
    cases h1 : step n s e with
    | none => simp [h1] at hs
    | some s1 =>
      simp only [h1] at hs
      exact ih s1 s' j (fun x hx => he x (List.mem_cons_of_mem _ hx)) hs
        (step_noWorse n s s1 e j (he e List.mem_cons_self) h1 h).2

/-- C46, for executions in which no complaint is carried out after the report: every individual
reported while running (with a usable score if reported alone) is no better than the individual
remembered as best, however the later reports, callbacks and aborts go.

The full property also covers reports followed by complaints; that fails, see
`C46_complaint_forgets`. -/
theorem C46_best_seen_partial (n : ℕ) (s s' : St) (i : ℕ) (o : Option ℕ) (np f : Bool)
    (es : List Event) (hr : s.running = true) (ho : o.isSome = true ∨ (s.store i).toBool = true)
    (hes : ∀ e ∈ es, e ≠ .handled true) (hs : run n s (.report i o np f :: es) = some s') :
    ∃ b, s'.iBest = some b ∧ (s'.store i).lt (s'.store b) = false := by
  simp only [run, step] at hs
  refine run_noWorse n es _ s' i hes hs ?_
  have hc : (o.isSome || (s.store i).toBool) = true := by simpa using ho
  unfold NoWorse
  rw [report_store, report_best, hr, hc]
  simp only [Bool.and_true, Bool.true_and]
  split_ifs with h
  · exact ⟨i, rfl, lt_irrefl _⟩
  · cases hb : s.iBest with
    | none => simp [better, hb] at h
    | some b => exact ⟨b, rfl, by simpa [better, hb] using h⟩

/-- Individuals `0`, `1`, `2`, `3` with scores 3, 2, 1 and 1/2. -/
def sample : ℕ → Individual
  | 0 => ⟨some (.fin 3), [0]⟩
  | 1 => ⟨some (.fin 2), [1]⟩
  | 2 => ⟨some (.fin 1), [2]⟩
  | _ => ⟨some (.fin (1 / 2)), [3]⟩

example : ((run 1 (new sample) [.report 1 none false false, .report 0 none false true,
    .returned .nothing, .report 2 (some 1) false false, .returned .complaint]).map
      fun s => s.iBest) = some (some 2) := by decide +kernel

/-- C46 fails with a complaint: individual 1 (score 2) was reported as a new best and nobody
complained about it, but after the complaint about individual 2 the remembered best is individual 0
(score 3). -/
theorem C46_complaint_forgets :
    (run 1 (new sample) [.report 0 none false false, .report 1 none false false,
      .returned .nothing, .report 2 none false false, .returned .nothing, .returned .complaint,
      .handled true]).map
      (fun s => (s.iBest, (s.store 0).SSE, (s.store 1).SSE)) =
    some (some 0, .fin 3, .fin 2) := by decide +kernel

/-- A best individual whose score is NaN stays the remembered best, whatever is reported. -/
theorem C46_nan_best_stays (n : ℕ) (s : St) (i b : ℕ) (o : Option ℕ) (np f : Bool)
    (hb : s.iBest = some b) (hnan : (s.store b).stored = some .nan) :
    (report n s i o np f).1.iBest = some b := by
  apply C46_no_better_no_change n s i b o np f hb
  have : (s.store b).toFloat = .nan := by
    simp [Individual.toFloat, Individual.SSE, hnan, PyFloat.lt]
  unfold Individual.lt
  rw [this]
  cases (s.store i).toFloat <;> rfl

example : ((run 1 (new fun i => if i = 0 then ⟨some .nan, [0]⟩ else sample i)
    [.report 0 none false false, .returned .nothing, .report 1 none false false]).map
      fun s => s.iBest) = some (some 0) := by decide +kernel

/-! ## C49: complaints -/

theorem complain_store (s : St) (i : ℕ) : (complain s i).store = (blacklist s i).store := by
  unfold complain
  simp only
  split
  · split_ifs <;> rfl
  · rfl

theorem blacklist_self (s : St) (i : ℕ) : ((blacklist s i).store i) = (s.store i).blacklist := by
  simp [blacklist]

/-- C49: once a complaint has been handled, the individual complained about has an infinite score,
and no other individual is changed. -/
theorem C49_blacklisted (n : ℕ) (s s' : St) (i k : ℕ) (hp : s.phase = .complaining i k)
    (hs : step n s (.handled true) = some s') :
    (s'.store i).SSE = .pinf ∧ ∀ j, j ≠ i → s'.store j = s.store j := by
  simp only [step, hp, if_true, Option.some.injEq] at hs
  subst hs
  rw [forLoop_store, complain_store]
  refine ⟨?_, ?_⟩
  · rw [blacklist_self]; rfl
  · intro j hj
    simp [blacklist, hj]

/-- C49: a complaint about an individual with a negative score, or after an abort, has the same effect as no
complaint. -/
theorem C49_complaint_ignored (n : ℕ) (s : St) (i k : ℕ) (hp : s.phase = .calling i k)
    (h : (∃ a : ℚ, (s.store i).stored = some (.fin a) ∧ a < 0) ∨ s.running = false) :
    step n s (.returned .complaint) = step n s (.returned .nothing) := by
  have hb : ((s.store i).toBool && s.running) = false := by
    rcases h with ⟨a, h1, h2⟩ | h
    · simp [Individual.toBool, h1, PyFloat.isNaN, PyFloat.le, PyFloat.zero, PyFloat.lt, PyFloat.eq,
        not_lt.mpr h2.le, h2.ne']
    · simp [h]
  simp only [step, hp, hb, Bool.false_eq_true, if_false]

/-- C49: if the run of callbacks was started by another individual that has a finite score, the
individual complained about loses its place to that one.

The full property says that the remembered best always reverts to the previous best; it does not, see
`C49_first_of_run_not_restored` and `C46_complaint_forgets`. -/
theorem C49_restored_partial (n : ℕ) (s s' : St) (i k p : ℕ) (a : ℚ)
    (hp : s.phase = .complaining i k) (hb : s.iBest = some i) (hpb : s.prevBest = some p)
    (hne : p ≠ i) (ha : Scored (s.store p) a) (hs : step n s (.handled true) = some s') :
    s'.iBest = some p := by
  simp only [step, hp, if_true, Option.some.injEq] at hs
  subst hs
  rw [forLoop_best]
  have h1 : (blacklist s i).prevBest = some p := hpb
  have h2 : (blacklist s i).iBest = some i := hb
  have h3 : (blacklist s i).store p = s.store p := by simp [blacklist, hne]
  have h4 : ((s.store i).blacklist).toFloat = .pinf := rfl
  simp only [complain, h1, h2, h3, blacklist_self, ha.toBool, Individual.lt, ha.toFloat, h4,
    PyFloat.lt, Bool.and_self, if_true]

example : (run 1 (new sample) [.report 0 none false false, .report 1 none false false,
      .returned .nothing, .returned .complaint]).map
      (fun s => (s.phase, s.iBest, s.prevBest)) =
    some (.complaining 1 0, some 1, some 0) := by decide +kernel

/-- C49 fails for the usual case: if no callbacks are running when a better individual is reported,
and the first callback complains about it, then after the complaint has been handled that individual
is still remembered as best, now with an infinite score, and the previous best is lost. -/
theorem C49_first_of_run_not_restored (n : ℕ) (s s' : St) (i b : ℕ) (a c : ℚ) (np f : Bool)
    (hn : 0 < n) (hidle : s.phase = .idle) (hr : s.running = true) (hb : s.iBest = some b)
    (hl : s.iLast = some b) (hi : Scored (s.store i) a) (hbs : Scored (s.store b) c)
    (hlt : a < c * (98 / 100))
    (hs : run n s [.report i none np f, .returned .complaint, .handled true] = some s') :
    s'.iBest = some i ∧ (s'.store i).SSE = .pinf := by
  have hc : 0 < c := by have := hi.2; linarith
  have hac : a < c := by linarith
  have hbet : better s i = true := by
    simp [better, hb, hi.lt hbs, hac]
  have hsame : same s.store i (some b) = false := by
    simp [same, Individual.eq, hi.SSE, hbs.SSE, PyFloat.eq, hac.ne]
  have hequiv : equivLast s i = false := by
    by_contra h
    have h' : equivSSE (.fin a) (.fin c) = true := by
      simpa [equivLast, hl, hi.SSE, hbs.SSE] using h
    have := (equivSSE_iff hc hac.le).1 h'
    linarith
  have hequiv' : equivLast { s with iBest := some i } i = false := hequiv
  -- the state after `newBest`
  have hnb : newBest n s i f =
      { s with
        iBest := some i, iLast := some i, bag := none, iPrev := some i, prevBest := some i
        log := s.log ++ [⟨0, i, (s.store i).values, (s.store i).SSE⟩]
        phase := .calling i 0 } := by
    have hg : (if same s.store i s.iLast then false else if f then true else
        if !true then false else !equivLast { s with iBest := some i } i) = true := by
      rw [hequiv', hl, hsame]
      cases f <;> rfl
    unfold newBest
    simp only [hbet, if_true]
    simp only [hg, if_true]
    simp [runCallbacks, whileLoop, hidle, hr, same, hn.ne']
  have hrep : (report n s i none np f).1 = put (newBest n s i f) np '!' := by
    simp only [report, hr, Bool.not_true, Bool.false_eq_true, if_false, call, hi.toBool, hb,
      hi.lt hbs, hac, decide_true, Bool.true_or, if_true]
  have hput : ∀ t : St, (put t np '!').phase = t.phase ∧ (put t np '!').store = t.store ∧
      (put t np '!').running = t.running ∧ (put t np '!').iBest = t.iBest ∧
      (put t np '!').prevBest = t.prevBest := by
    intro t
    unfold put
    split_ifs <;> exact ⟨rfl, rfl, rfl, rfl, rfl⟩
  obtain ⟨p1, p2, p3, p4, p5⟩ := hput (newBest n s i f)
  rw [← hrep, hnb] at p1 p2 p3 p4 p5
  simp only [run, step] at hs
  generalize (report n s i none np f).1 = t at *
  simp only [p1, p2, p3, hi.toBool, hr, Bool.and_self, if_true, Option.some.injEq] at hs
  subst hs
  rw [forLoop_best, forLoop_store, complain_store]
  refine ⟨?_, ?_⟩
  · have h4 : ((s.store i).blacklist).toFloat = .pinf := rfl
    unfold complain
    simp only [blacklist, p4, p5, if_true]
    simp [Individual.lt, h4, PyFloat.lt]
  · simp only [blacklist, if_true]
    rfl

example : (run 1 (new sample) [.report 0 none false false, .returned .nothing,
      .report 1 none false false, .returned .complaint, .handled true]).map
      (fun s => (s.phase, s.iBest, (s.store 1).SSE, (s.store 0).SSE)) =
    some (.idle, some 1, .pinf, .fin 3) := by decide +kernel

/-- After such a complaint, the next reported individual with a usable score becomes the best, even
if it is worse than the lost one. -/
theorem C49_next_takes_over (n : ℕ) (s : St) (i b : ℕ) (o : Option ℕ) (a : ℚ) (np f : Bool)
    (hr : s.running = true) (hb : s.iBest = some b) (hinf : (s.store b).SSE = .pinf)
    (hi : Scored (s.store i) a) : (report n s i o np f).1.iBest = some i := by
  have h : (s.store b).toFloat = .pinf := by simp [Individual.toFloat, hinf, PyFloat.lt]
  have hbet : better s i = true := by
    simp [better, hb, Individual.lt, hi.toFloat, h, PyFloat.lt]
  rw [report_best, hr, hbet, hi.toBool]
  simp

example : (run 1 (new sample) [.report 2 none false false, .returned .complaint, .handled true,
      .report 0 none false false]).map (fun s => s.iBest) = some (some 0) := by decide +kernel

example := C46_no_better_no_change 1 { new sample with iBest := some 1 } 0 1 none false false rfl (by decide +kernel)

/-- A callback has complained about individual 1. -/
def complained : St := (run 1 (new sample) [.report 0 none false false, .returned .nothing,
  .report 1 none false false, .returned .complaint]).get (by decide +kernel)

example := C49_blacklisted 1 complained ((step 1 complained (.handled true)).get (by decide +kernel)) 1 0 (by decide +kernel)
  (eq_get _)

/-- A callback is running for individual 1 when the abort is requested. -/
def stopped : St := (run 1 (new sample) [.report 0 none false false, .returned .nothing,
  .report 1 none false false, .abort]).get (by decide +kernel)

example := C49_complaint_ignored 1 stopped 1 0 (by decide +kernel) (.inr (by decide +kernel))

end Reporter
end Ade
