import Verif.Model.Format
import Verif.Props.SpecsValues
import Verif.Props.Reporter
import Verif.Props.LogText
import Verif.Props.Lgg
import Mathlib.Tactic.Linarith
import Mathlib.Tactic.Positivity
import Mathlib.Tactic.LinearCombination
import Mathlib.Algebra.Order.Field.Power

/-!
# C128: numbers in the log are as accurate as the format allows
-/

set_option autoImplicit false

namespace Ade
namespace Format

open Specs (Str Numeral parseValue natOf digitChar fracText fracVal expText expFactor signText lower)
open Reporter (roundHalfEven round_nearest round_mono)

/-! ### Digits -/

/-- The digits of `pad`. -/
def padF : ℕ → ℕ → List (Fin 10)
  | 0, _ => []
  | w + 1, n => padF w (n / 10) ++ [⟨n % 10, Nat.mod_lt _ (by norm_num)⟩]

theorem pad_eq (w n : ℕ) : pad w n = (padF w n).map digitChar := by
  induction w generalizing n with
  | zero => rfl
  | succ w ih => simp only [pad, padF, ih, List.map_append, List.map_cons, List.map_nil]; rfl

theorem padF_length (w n : ℕ) : (padF w n).length = w := by
  induction w generalizing n with
  | zero => rfl
  | succ w ih => simp [padF, ih]

theorem natOf_padF (w n : ℕ) : natOf (padF w n) = n % 10 ^ w := by
  induction w generalizing n with
  | zero => simp [padF, natOf, Nat.mod_one]
  | succ w ih =>
    rw [padF, Specs.natOf_append, ih, pow_succ', Nat.mod_mul]
    simp [natOf]
    ring

theorem natOf_decimal (n : ℕ) : natOf (padF (Nat.log 10 n + 1) n) = n := by
  rw [natOf_padF, Nat.mod_eq_of_lt (Nat.lt_pow_succ_log_self (by norm_num) n)]

theorem natOf_zeros (k : ℕ) : natOf (List.replicate k 0) = 0 := by
  induction k with
  | zero => rfl
  | succ k ih =>
    rw [List.replicate_succ', Specs.natOf_append, ih]
    simp [natOf]

theorem digitChar_zero {d : Fin 10} (h : digitChar d = '0') : d = 0 := by
  revert d; decide

theorem dropWhile_zeros (ds : List (Fin 10)) :
    ∃ k ds', ds = List.replicate k 0 ++ ds' ∧ (ds.map digitChar).dropWhile (· = '0') = ds'.map digitChar := by
  induction ds with
  | nil => exact ⟨0, [], rfl, rfl⟩
  | cons d ds ih =>
    obtain ⟨k, ds', h1, h2⟩ := ih
    by_cases h : digitChar d = '0'
    · refine ⟨k + 1, ds', ?_, ?_⟩
      · rw [digitChar_zero h, List.replicate_succ, List.cons_append, ← h1]
      · rw [List.map_cons, List.dropWhile_cons, if_pos (by simpa using h), h2]
    · refine ⟨0, d :: ds, rfl, ?_⟩
      rw [List.map_cons, List.dropWhile_cons, if_neg (by simpa using h)]

theorem strip0_eq (ds : List (Fin 10)) :
    ∃ k ds', ds = ds' ++ List.replicate k 0 ∧ strip0 (ds.map digitChar) = ds'.map digitChar := by
  obtain ⟨k, ds', h1, h2⟩ := dropWhile_zeros ds.reverse
  refine ⟨k, ds'.reverse, ?_, ?_⟩
  · have := congrArg List.reverse h1
    simpa using this
  · unfold strip0
    rw [← List.map_reverse, h2, List.map_reverse]

/-- The part after the point, as digits. -/
theorem fraction_eq (d n : ℕ) (hn : n < 10 ^ d) :
    ∃ f : Option (List (Fin 10)), f ≠ some [] ∧ fraction d n = fracText f ∧ fracVal f = (n : ℚ) / 10 ^ d ∧
      (fraction d n).length ≤ d + 1 := by
  obtain ⟨k, ds', h1, h2⟩ := strip0_eq (padF d n)
  have hv : n = natOf ds' * 10 ^ k := by
    have := natOf_padF d n
    rw [h1, Specs.natOf_append, natOf_zeros, List.length_replicate, Nat.mod_eq_of_lt hn] at this
    omega
  have hl : d = ds'.length + k := by
    have := congrArg List.length h1
    rw [padF_length] at this
    simpa using this
  unfold fraction
  rw [pad_eq, h2]
  by_cases he : ds' = []
  · subst he
    refine ⟨none, by simp, by simp [fracText], ?_, by simp⟩
    have : n = 0 := by rw [hv]; simp [natOf]
    simp [fracVal, this]
  · refine ⟨some ds', by simpa using he, by simp [fracText, he], ?_, ?_⟩
    · rw [fracVal, hl, hv]
      push_cast
      rw [pow_add]
      field_simp
    · simp [he]; omega

theorem lower_text (n : Numeral) : lower n.text = n.text := by
  have hs : ∀ o, lower (signText o) = signText o := by
    intro o; cases o with
    | none => rfl
    | some b => cases b <;> rfl
  have happ : ∀ a b : Str, lower (a ++ b) = lower a ++ lower b := fun a b => by simp [lower]
  have hf : ∀ o, lower (fracText o) = fracText o := by
    intro o; cases o with
    | none => rfl
    | some f =>
      have : fracText (some f) = ['.'] ++ f.map digitChar := rfl
      rw [this, happ, Specs.lower_digits]; rfl
  have he : ∀ o, lower (expText o) = expText o := by
    intro o; cases o with
    | none => rfl
    | some e =>
      have : expText (some e) = ['e'] ++ (signText e.1 ++ e.2.map digitChar) := rfl
      rw [this, happ, happ, hs, Specs.lower_digits]; rfl
  unfold Numeral.text
  rw [happ, happ, happ, hs, Specs.lower_digits, hf, he]

theorem parse_text (n : Numeral) (h : n.Ok) : parseValue n.text = .num n.value :=
  Specs.C51_value_round_trip _ _ (.num n _ h (lower_text n))

theorem padF_ne (w n : ℕ) (hw : 0 < w) : padF w n ≠ [] := by
  intro h
  have := padF_length w n
  rw [h] at this
  simp at this
  omega

/-- `1` or `-1`. -/
def sgn (q : ℚ) : ℚ := if q < 0 then -1 else 1

theorem sgn_abs (q : ℚ) : sgn q * |q| = q := by
  unfold sgn
  split_ifs with h
  · rw [abs_of_neg h]; ring
  · rw [abs_of_nonneg (not_lt.1 h)]; ring

theorem abs_sgn (q : ℚ) : |sgn q| = 1 := by
  unfold sgn; split_ifs <;> simp

theorem sign_eq (q : ℚ) : sign q = signText (if q < 0 then some true else none) := by
  unfold sign; split_ifs <;> rfl

theorem neg_eq (q : ℚ) : (if (if q < 0 then some true else none : Option Bool) = some true then (-1 : ℚ) else 1) = sgn q := by
  unfold sgn; split_ifs <;> simp_all

/-! ### `{:.df}` -/

theorem fixed_numeral (d : ℕ) (hd : 0 < d) (q : ℚ) :
    ∃ N : Numeral, N.Ok ∧ fixed d q = N.text ∧ N.value = sgn q * (roundHalfEven (|q| * 10 ^ d) / 10 ^ d) ∧
      N.neg ≠ some false ∧ N.exp = none := by
  unfold fixed
  dsimp only
  generalize roundHalfEven (|q| * 10 ^ d) = n
  let N : Numeral := ⟨if q < 0 then some true else none, padF (Nat.log 10 (n / 10 ^ d) + 1) (n / 10 ^ d),
    some (padF d (n % 10 ^ d)), none⟩
  have hok : N.Ok := ⟨padF_ne _ _ (Nat.succ_pos _), by simpa [N] using padF_ne d _ hd, by simp [N]⟩
  have ht : sign q ++ (decimal (n / 10 ^ d) ++ '.' :: pad d (n % 10 ^ d)) = N.text := by
    simp only [Numeral.text, N, sign_eq, decimal, pad_eq, fracText, expText, List.append_nil]
  refine ⟨N, hok, ht, ?_, by simp only [N]; split_ifs <;> simp, rfl⟩
  simp only [Numeral.value, N, fracVal, expFactor, natOf_decimal, neg_eq, natOf_padF, padF_length, Nat.mod_mod, mul_one]
  congr 1
  have hpos : (10 : ℚ) ^ d ≠ 0 := by positivity
  rw [eq_div_iff hpos, add_mul, div_mul_cancel₀ _ hpos]
  have : n / 10 ^ d * 10 ^ d + n % 10 ^ d = n := by rw [mul_comm]; exact Nat.div_add_mod n _
  exact_mod_cast this

theorem fixed_value (d : ℕ) (hd : 0 < d) (q : ℚ) :
    parseValue (fixed d q) = .num (sgn q * (roundHalfEven (|q| * 10 ^ d) / 10 ^ d)) := by
  obtain ⟨N, h1, h2, h3, -⟩ := fixed_numeral d hd q
  rw [h2, parse_text N h1, h3]

/-! ### `{:.Pg}` -/

/-- The value that the digits of `significand` stand for. -/
def shown (P : ℕ) (a : ℚ) : ℚ := roundHalfEven (a / 10 ^ (Int.log 10 a - (P - 1 : ℕ))) * 10 ^ (Int.log 10 a - (P - 1 : ℕ))

theorem round_nat (n : ℕ) : roundHalfEven (n : ℚ) = n := by
  unfold roundHalfEven
  simp

theorem log_bounds {a : ℚ} (ha : 0 < a) : (10 : ℚ) ^ Int.log 10 a ≤ a ∧ a < 10 ^ (Int.log 10 a + 1) := by
  have h1 := Int.zpow_log_le_self (b := 10) (r := a) (by norm_num) ha
  have h2 := Int.lt_zpow_succ_log_self (b := 10) (by norm_num) a
  push_cast at h1 h2
  exact ⟨h1, h2⟩

theorem scaled_bounds (P : ℕ) (hP : 0 < P) {a : ℚ} (ha : 0 < a) :
    (10 : ℚ) ^ (P - 1) ≤ a / 10 ^ (Int.log 10 a - (P - 1 : ℕ)) ∧ a / 10 ^ (Int.log 10 a - (P - 1 : ℕ)) < 10 ^ P := by
  obtain ⟨h1, h2⟩ := log_bounds ha
  have hpos : (0 : ℚ) < 10 ^ (Int.log 10 a - (P - 1 : ℕ)) := by positivity
  constructor
  · rw [le_div_iff₀ hpos, ← zpow_natCast, ← zpow_add₀ (by norm_num)]
    have : ((P - 1 : ℕ) : ℤ) + (Int.log 10 a - (P - 1 : ℕ)) = Int.log 10 a := by ring
    rw [this]
    exact h1
  · rw [div_lt_iff₀ hpos, ← zpow_natCast, ← zpow_add₀ (by norm_num)]
    have : (P : ℤ) + (Int.log 10 a - (P - 1 : ℕ)) = Int.log 10 a + 1 := by omega
    rw [this]
    exact h2

theorem rounded_bounds (P : ℕ) (hP : 0 < P) {a : ℚ} (ha : 0 < a) :
    10 ^ (P - 1) ≤ roundHalfEven (a / 10 ^ (Int.log 10 a - (P - 1 : ℕ))) ∧
    roundHalfEven (a / 10 ^ (Int.log 10 a - (P - 1 : ℕ))) ≤ 10 ^ P := by
  obtain ⟨h1, h2⟩ := scaled_bounds P hP ha
  have hnn : (0 : ℚ) ≤ a / 10 ^ (Int.log 10 a - (P - 1 : ℕ)) := le_trans (by positivity) h1
  constructor
  · have := round_mono (x := ((10 ^ (P - 1) : ℕ) : ℚ)) (by positivity) (by push_cast; exact h1)
    rwa [round_nat] at this
  · have := round_mono hnn (y := ((10 ^ P : ℕ) : ℚ)) (by push_cast; exact h2.le)
    rwa [round_nat] at this

theorem significand_facts (P : ℕ) (hP : 0 < P) {a : ℚ} (ha : 0 < a) :
    10 ^ (P - 1) ≤ (significand P a).1 ∧ (significand P a).1 < 10 ^ P ∧
    ((significand P a).1 : ℚ) * 10 ^ ((significand P a).2 - (P - 1 : ℕ)) = shown P a := by
  obtain ⟨h1, h2⟩ := rounded_bounds P hP ha
  unfold significand shown
  dsimp only
  split_ifs with h
  · refine ⟨Nat.le_refl _, Nat.pow_lt_pow_right (by norm_num) (by omega), ?_⟩
    rw [h]
    push_cast
    rw [← zpow_natCast, ← zpow_natCast, ← zpow_add₀ (by norm_num), ← zpow_add₀ (by norm_num)]
    congr 1
    have : ((P - 1 : ℕ) : ℤ) = P - 1 := by omega
    rw [this]; ring
  · exact ⟨h1, by omega, rfl⟩

theorem significand_pos (P : ℕ) (hP : 0 < P) {a : ℚ} (ha : 0 < a) : 0 < shown P a := by
  obtain ⟨h1, _⟩ := rounded_bounds P hP ha
  have : 0 < 10 ^ (P - 1) := by positivity
  have h : (0 : ℚ) < roundHalfEven (a / 10 ^ (Int.log 10 a - (P - 1 : ℕ))) := by
    exact_mod_cast lt_of_lt_of_le this h1
  unfold shown
  positivity

theorem general_numeral (P : ℕ) (hP : 0 < P) (q : ℚ) (hq : q ≠ 0) :
    ∃ N : Numeral, N.Ok ∧ general P q = N.text ∧ N.value = sgn q * shown P |q| ∧ N.neg ≠ some false ∧
      ∀ e, N.exp = some e → e.1 ≠ none := by
  have ha : 0 < |q| := abs_pos.2 hq
  obtain ⟨hm1, hm2, hv⟩ := significand_facts P hP ha
  unfold general
  rw [if_neg hq]
  rw [← hv]
  generalize significand P |q| = mX at *
  obtain ⟨m, X⟩ := mX
  dsimp only at *
  have hneg : (if q < 0 then some true else none : Option Bool) ≠ some false := by split_ifs <;> simp
  split_ifs with hX
  · obtain ⟨hX1, hX2⟩ := hX
    generalize hd : ((P - 1 : ℕ) - X).toNat = d
    obtain ⟨f, hf1, hf2, hf3, -⟩ := fraction_eq d (m % 10 ^ d) (Nat.mod_lt _ (by positivity))
    refine ⟨⟨if q < 0 then some true else none, padF (Nat.log 10 (m / 10 ^ d) + 1) (m / 10 ^ d), f, none⟩,
      ⟨padF_ne _ _ (Nat.succ_pos _), hf1, by simp⟩, ?_, ?_, hneg, by simp⟩
    · simp only [Numeral.text, sign_eq, decimal, pad_eq, hf2, expText, List.append_nil]
    · simp only [Numeral.value, natOf_decimal, neg_eq, hf3, expFactor, mul_one]
      congr 1
      have hpos : (10 : ℚ) ^ d ≠ 0 := by positivity
      have he : (10 : ℚ) ^ (X - (P - 1 : ℕ)) = 1 / 10 ^ d := by
        have : X - (P - 1 : ℕ) = -(d : ℤ) := by omega
        rw [this, zpow_neg, zpow_natCast, one_div]
      rw [he, mul_one_div, eq_div_iff hpos, add_mul, div_mul_cancel₀ _ hpos]
      have : m / 10 ^ d * 10 ^ d + m % 10 ^ d = m := by rw [mul_comm]; exact Nat.div_add_mod m _
      exact_mod_cast this
  · obtain ⟨f, hf1, hf2, hf3, -⟩ := fraction_eq (P - 1) (m % 10 ^ (P - 1)) (Nat.mod_lt _ (by positivity))
    generalize hw : max 2 (Nat.log 10 X.natAbs + 1) = w
    have hwX : X.natAbs < 10 ^ w := by
      have h1 := Nat.lt_pow_succ_log_self (b := 10) (by norm_num) X.natAbs
      exact lt_of_lt_of_le h1 (Nat.pow_le_pow_right (by norm_num) (by omega))
    refine ⟨⟨if q < 0 then some true else none, padF (Nat.log 10 (m / 10 ^ (P - 1)) + 1) (m / 10 ^ (P - 1)), f,
      some (some (decide (X < 0)), padF w X.natAbs)⟩, ⟨padF_ne _ _ (Nat.succ_pos _), hf1, ?_⟩, ?_, ?_, hneg, by simp⟩
    · intro e he
      simp only [Option.some.injEq] at he
      subst he
      exact padF_ne _ _ (by omega)
    · simp only [Numeral.text, sign_eq, decimal, pad_eq, hf2, expText, expo, hw]
      by_cases hneg : X < 0 <;> simp [hneg, signText]
    · simp only [Numeral.value, natOf_decimal, neg_eq, hf3]
      rw [mul_assoc]
      congr 1
      have hpos : (10 : ℚ) ^ (P - 1) ≠ 0 := by positivity
      have he : expFactor (some (some (decide (X < 0)), padF w X.natAbs)) = (10 : ℚ) ^ X := by
        unfold expFactor
        dsimp only
        rw [natOf_padF, Nat.mod_eq_of_lt hwX]
        by_cases hneg : X < 0
        · have : X = -(X.natAbs : ℤ) := by omega
          conv_rhs => rw [this, zpow_neg, zpow_natCast]
          simp [hneg]
        · have : X = (X.natAbs : ℤ) := by omega
          conv_rhs => rw [this, zpow_natCast]
          simp [hneg]
      rw [he, zpow_sub₀ (by norm_num), zpow_natCast]
      have : m / 10 ^ (P - 1) * 10 ^ (P - 1) + m % 10 ^ (P - 1) = m := by rw [mul_comm]; exact Nat.div_add_mod m _
      have h2 : ((m / 10 ^ (P - 1) : ℕ) : ℚ) + ((m % 10 ^ (P - 1) : ℕ) : ℚ) / 10 ^ (P - 1) = m / 10 ^ (P - 1) := by
        rw [eq_div_iff hpos, add_mul, div_mul_cancel₀ _ hpos]
        exact_mod_cast this
      rw [h2]; ring

theorem general_value (P : ℕ) (hP : 0 < P) (q : ℚ) (hq : q ≠ 0) :
    parseValue (general P q) = .num (sgn q * shown P |q|) := by
  obtain ⟨N, h1, h2, h3, -⟩ := general_numeral P hP q hq
  rw [h2, parse_text N h1, h3]

theorem general_zero (P : ℕ) : parseValue (general P 0) = .num 0 := by
  have : general P 0 = ['0'] := by simp [general]
  rw [this]
  decide +kernel

/-! ### The numbers read back -/

/-- The number that `{:.Pg}` is read back as. -/
def readBack (P : ℕ) (q : ℚ) : ℚ := if q = 0 then 0 else sgn q * shown P |q|

theorem general_reads (P : ℕ) (hP : 0 < P) (q : ℚ) : parseValue (general P q) = .num (readBack P q) := by
  unfold readBack
  split_ifs with h
  · subst h; exact general_zero P
  · exact general_value P hP q h

theorem shown_near (P : ℕ) {a : ℚ} (ha : 0 < a) :
    |shown P a - a| ≤ 10 ^ (Int.log 10 a - (P - 1 : ℕ)) / 2 := by
  have hpos : (0 : ℚ) < 10 ^ (Int.log 10 a - (P - 1 : ℕ)) := by positivity
  have h := round_nearest (x := a / 10 ^ (Int.log 10 a - (P - 1 : ℕ))) (by positivity)
  unfold Reporter.Nearest at h
  unfold shown
  generalize (10 : ℚ) ^ (Int.log 10 a - (P - 1 : ℕ)) = t at *
  generalize roundHalfEven (a / t) = m at *
  have : (m : ℚ) * t - a = (m - a / t) * t := by field_simp
  rw [this, abs_mul, abs_of_pos hpos]
  nlinarith

theorem readBack_near (P : ℕ) {q : ℚ} (hq : q ≠ 0) :
    |readBack P q - q| ≤ 10 ^ (Int.log 10 |q| - (P - 1 : ℕ)) / 2 := by
  have h := shown_near P (abs_pos.2 hq)
  unfold readBack
  rw [if_neg hq]
  have : sgn q * shown P |q| - q = sgn q * (shown P |q| - |q|) := by
    have := sgn_abs q
    linear_combination this
  rw [this, abs_mul, abs_sgn, one_mul]
  exact h

theorem shown_mono (P : ℕ) (hP : 0 < P) {a b : ℚ} (ha : 0 < a) (hab : a ≤ b) : shown P a ≤ shown P b := by
  have hb : 0 < b := lt_of_lt_of_le ha hab
  have hlog : Int.log 10 a ≤ Int.log 10 b := Int.log_mono_right ha hab
  rcases lt_or_eq_of_le hlog with h | h
  · obtain ⟨-, h1⟩ := rounded_bounds P hP ha
    obtain ⟨h2, -⟩ := rounded_bounds P hP hb
    have h3 : shown P a ≤ 10 ^ (Int.log 10 a + 1) := by
      have : ((roundHalfEven (a / 10 ^ (Int.log 10 a - (P - 1 : ℕ))) : ℕ) : ℚ) ≤ 10 ^ P := by exact_mod_cast h1
      have h4 : shown P a ≤ (10 : ℚ) ^ P * 10 ^ (Int.log 10 a - (P - 1 : ℕ)) :=
        mul_le_mul_of_nonneg_right this (by positivity)
      rwa [← zpow_natCast, ← zpow_add₀ (by norm_num),
        show (P : ℤ) + (Int.log 10 a - (P - 1 : ℕ)) = Int.log 10 a + 1 by omega] at h4
    have h5 : (10 : ℚ) ^ Int.log 10 b ≤ shown P b := by
      have : (10 : ℚ) ^ (P - 1) ≤ ((roundHalfEven (b / 10 ^ (Int.log 10 b - (P - 1 : ℕ))) : ℕ) : ℚ) := by exact_mod_cast h2
      have h4 : (10 : ℚ) ^ (P - 1) * 10 ^ (Int.log 10 b - (P - 1 : ℕ)) ≤ shown P b :=
        mul_le_mul_of_nonneg_right this (by positivity)
      rwa [← zpow_natCast, ← zpow_add₀ (by norm_num),
        show ((P - 1 : ℕ) : ℤ) + (Int.log 10 b - (P - 1 : ℕ)) = Int.log 10 b by omega] at h4
    have h6 : (10 : ℚ) ^ (Int.log 10 a + 1) ≤ 10 ^ Int.log 10 b := zpow_le_zpow_right₀ (by norm_num) (by omega)
    linarith
  · unfold shown
    rw [h]
    have hpos : (0 : ℚ) < 10 ^ (Int.log 10 b - (P - 1 : ℕ)) := by positivity
    apply mul_le_mul_of_nonneg_right _ hpos.le
    have := round_mono (x := a / 10 ^ (Int.log 10 b - (P - 1 : ℕ))) (by positivity) (div_le_div_of_nonneg_right hab hpos.le)
    exact_mod_cast this

theorem readBack_pos (P : ℕ) (hP : 0 < P) {q : ℚ} (hq : 0 < q) : readBack P q = shown P q ∧ 0 < readBack P q := by
  have h : readBack P q = shown P q := by
    unfold readBack sgn
    rw [if_neg hq.ne', if_neg (not_lt.2 hq.le), abs_of_pos hq, one_mul]
  exact ⟨h, h ▸ significand_pos P hP hq⟩

theorem readBack_neg (P : ℕ) (hP : 0 < P) {q : ℚ} (hq : q < 0) : readBack P q = -shown P (-q) ∧ readBack P q < 0 := by
  have h : readBack P q = -shown P (-q) := by
    unfold readBack sgn
    rw [if_neg hq.ne, if_pos hq, abs_of_neg hq]; ring
  have := significand_pos P hP (a := -q) (by linarith)
  exact ⟨h, by rw [h]; linarith⟩

theorem readBack_mono (P : ℕ) (hP : 0 < P) {q q' : ℚ} (h : q ≤ q') : readBack P q ≤ readBack P q' := by
  rcases lt_trichotomy q 0 with hq | hq | hq
  · obtain ⟨e1, l1⟩ := readBack_neg P hP hq
    rcases lt_trichotomy q' 0 with hq' | hq' | hq'
    · obtain ⟨e2, -⟩ := readBack_neg P hP hq'
      have := shown_mono P hP (a := -q') (b := -q) (by linarith) (by linarith)
      rw [e1, e2]; linarith
    · subst hq'; simp [readBack] at *; exact l1.le
    · exact (l1.trans (readBack_pos P hP hq').2).le
  · subst hq
    rcases lt_or_eq_of_le h with hq' | hq'
    · have := (readBack_pos P hP hq').2
      simp only [readBack, if_pos] at *
      exact this.le
    · rw [← hq']
  · have hq' : 0 < q' := by linarith
    rw [(readBack_pos P hP hq).1, (readBack_pos P hP hq').1]
    exact shown_mono P hP hq h

/-! ### C128 -/

/-- C128: a number printed with `P` significant digits is read back as the multiple of its last digit's unit that is
nearest to it: `r` is a multiple of `10 ^ e`, where `10 ^ e` is the unit of the `P`-th digit of `q`, and at most half a
unit away from `q`. -/
theorem C128_general (P : ℕ) (hP : 0 < P) (q : ℚ) (hq : q ≠ 0) :
    ∃ (r : ℚ) (e k : ℤ), parseValue (general P q) = .num r ∧
      (10 : ℚ) ^ (e + P - 1) ≤ |q| ∧ |q| < 10 ^ (e + P) ∧ r = k * 10 ^ e ∧ |r - q| ≤ 10 ^ e / 2 := by
  have ha : 0 < |q| := abs_pos.2 hq
  obtain ⟨h1, h2⟩ := log_bounds ha
  refine ⟨readBack P q, Int.log 10 |q| - (P - 1 : ℕ),
    (if q < 0 then -1 else 1) * (roundHalfEven (|q| / 10 ^ (Int.log 10 |q| - (P - 1 : ℕ))) : ℤ),
    general_reads P hP q, ?_, ?_, ?_, readBack_near P hq⟩
  · rwa [show Int.log 10 |q| - (P - 1 : ℕ) + P - 1 = Int.log 10 |q| by omega]
  · rwa [show Int.log 10 |q| - (P - 1 : ℕ) + P = Int.log 10 |q| + 1 by omega]
  · unfold readBack shown sgn
    rw [if_neg hq]
    push_cast
    ring

/-- C128: zero is printed as something read back as zero, and nothing else is. -/
theorem C128_zero (P : ℕ) (hP : 0 < P) (q : ℚ) : parseValue (general P q) = .num 0 ↔ q = 0 := by
  constructor
  · intro h
    rw [general_reads P hP] at h
    have h0 : readBack P q = 0 := by injection h
    rcases lt_trichotomy q 0 with hq | hq | hq
    · exact absurd h0 (readBack_neg P hP hq).2.ne
    · exact hq
    · exact absurd h0 (readBack_pos P hP hq).2.ne'
  · rintro rfl
    exact general_zero P

theorem readBack_relative (P : ℕ) (hP : 0 < P) (q : ℚ) : |readBack P q - q| ≤ 5 / 10 ^ P * |q| := by
  by_cases hq : q = 0
  · subst hq; simp [readBack]
  · have ha : 0 < |q| := abs_pos.2 hq
    refine (readBack_near P hq).trans ?_
    obtain ⟨h1, -⟩ := log_bounds ha
    have : (10 : ℚ) ^ (Int.log 10 |q| - (P - 1 : ℕ)) = 10 / 10 ^ P * 10 ^ Int.log 10 |q| := by
      rw [zpow_sub₀ (by norm_num), zpow_natCast]
      have : (10 : ℚ) ^ P = 10 ^ (P - 1) * 10 := by rw [← pow_succ]; congr 1; omega
      rw [this]
      field_simp
    rw [this]
    have hp : (0 : ℚ) < 5 / 10 ^ P := by positivity
    calc 10 / 10 ^ P * (10 : ℚ) ^ Int.log 10 |q| / 2 = 5 / 10 ^ P * 10 ^ Int.log 10 |q| := by ring
      _ ≤ _ := mul_le_mul_of_nonneg_left h1 hp.le

/-- C128: the relative error of a number printed with `P` significant digits is at most `5 / 10 ^ P`. -/
theorem C128_relative (P : ℕ) (hP : 0 < P) (q : ℚ) :
    ∃ r, parseValue (general P q) = .num r ∧ |r - q| ≤ 5 / 10 ^ P * |q| :=
  ⟨readBack P q, general_reads P hP q, readBack_relative P hP q⟩

/-- C128: a number that has at most `P` significant digits is read back exactly. -/
theorem C128_exact (P : ℕ) (hP : 0 < P) (k e : ℤ) (hk : |k| < 10 ^ P) :
    parseValue (general P (k * 10 ^ e)) = .num (k * 10 ^ e) := by
  rw [general_reads P hP]
  congr 1
  by_cases h0 : k = 0
  · subst h0; simp [readBack]
  have hpos : (0 : ℚ) < 10 ^ e := by positivity
  have hq : (k : ℚ) * 10 ^ e ≠ 0 := mul_ne_zero (by exact_mod_cast h0) hpos.ne'
  have habs : |(k : ℚ) * 10 ^ e| = (k.natAbs : ℚ) * 10 ^ e := by
    rw [abs_mul, abs_of_pos hpos, Nat.cast_natAbs, Int.cast_abs]
  have hsh : shown P |(k : ℚ) * 10 ^ e| = |(k : ℚ) * 10 ^ e| := by
    have ha : 0 < |(k : ℚ) * 10 ^ e| := abs_pos.2 hq
    have hlog : Int.log 10 |(k : ℚ) * 10 ^ e| < e + P := by
      have h1 := (log_bounds ha).1
      have hk' : (k.natAbs : ℚ) < 10 ^ P := by
        have : (k.natAbs : ℤ) < 10 ^ P := by rwa [Int.natCast_natAbs]
        exact_mod_cast this
      have h2 : |(k : ℚ) * 10 ^ e| < 10 ^ (e + P) := by
        rw [habs, zpow_add₀ (by norm_num), zpow_natCast, mul_comm]
        exact mul_lt_mul_of_pos_left hk' hpos
      exact (zpow_lt_zpow_iff_right₀ (by norm_num : (1 : ℚ) < 10)).1 (lt_of_le_of_lt h1 h2)
    unfold shown
    generalize Int.log 10 |(k : ℚ) * 10 ^ e| = L at *
    obtain ⟨j, hj⟩ : ∃ j : ℕ, e = L - (P - 1 : ℕ) + j := ⟨(e - (L - (P - 1 : ℕ))).toNat, by omega⟩
    have hd : |(k : ℚ) * 10 ^ e| / 10 ^ (L - (P - 1 : ℕ)) = ((k.natAbs * 10 ^ j : ℕ) : ℚ) := by
      rw [habs, hj, zpow_add₀ (by norm_num), zpow_natCast]
      push_cast
      field_simp
    rw [hd, round_nat, ← hd]
    field_simp
  unfold readBack
  rw [if_neg hq, hsh, sgn_abs]

/-- C128: the order of numbers is kept (though unequal numbers may be printed alike). -/
theorem C128_order (P : ℕ) (hP : 0 < P) (q q' : ℚ) (h : q ≤ q') :
    ∃ r r', parseValue (general P q) = .num r ∧ parseValue (general P q') = .num r' ∧ r ≤ r' :=
  ⟨_, _, general_reads P hP q, general_reads P hP q', readBack_mono P hP h⟩

theorem log_eq {P : ℕ} (hP : 0 < P) {m : ℕ} {X : ℤ} (h1 : 10 ^ (P - 1) ≤ m) (h2 : m < 10 ^ P) :
    Int.log 10 ((m : ℚ) * 10 ^ (X - (P - 1 : ℕ))) = X := by
  have hpos : (0 : ℚ) < 10 ^ (X - (P - 1 : ℕ)) := by positivity
  have hm : (10 : ℚ) ^ (P - 1) ≤ m := by exact_mod_cast h1
  have hm2 : (m : ℚ) < 10 ^ P := by exact_mod_cast h2
  have hmpos : (0 : ℚ) < m := lt_of_lt_of_le (by positivity) hm
  have ha : (0 : ℚ) < (m : ℚ) * 10 ^ (X - (P - 1 : ℕ)) := mul_pos hmpos hpos
  have l1 : (10 : ℚ) ^ X ≤ (m : ℚ) * 10 ^ (X - (P - 1 : ℕ)) := by
    have := mul_le_mul_of_nonneg_right hm hpos.le
    rwa [← zpow_natCast, ← zpow_add₀ (by norm_num), show ((P - 1 : ℕ) : ℤ) + (X - (P - 1 : ℕ)) = X by ring] at this
  have l2 : (m : ℚ) * 10 ^ (X - (P - 1 : ℕ)) < 10 ^ (X + 1) := by
    have := mul_lt_mul_of_pos_right hm2 hpos
    rwa [← zpow_natCast (10 : ℚ) P, ← zpow_add₀ (by norm_num), show (P : ℤ) + (X - (P - 1 : ℕ)) = X + 1 by omega] at this
  obtain ⟨b1, b2⟩ := log_bounds ha
  have c1 := (zpow_lt_zpow_iff_right₀ (by norm_num : (1 : ℚ) < 10)).1 (lt_of_le_of_lt b1 l2)
  have c2 := (zpow_lt_zpow_iff_right₀ (by norm_num : (1 : ℚ) < 10)).1 (lt_of_le_of_lt l1 b2)
  omega

theorem significand_shown (P : ℕ) (hP : 0 < P) {a : ℚ} (ha : 0 < a) : significand P (shown P a) = significand P a := by
  obtain ⟨h1, h2, h3⟩ := significand_facts P hP ha
  rw [← h3]
  generalize significand P a = mX at *
  obtain ⟨m, X⟩ := mX
  dsimp only at *
  unfold significand
  rw [log_eq hP h1 h2]
  have hpos : (10 : ℚ) ^ (X - (P - 1 : ℕ)) ≠ 0 := by positivity
  dsimp only
  rw [mul_div_assoc, div_self hpos, mul_one, round_nat]
  rw [if_neg h2.ne]

/-- C128: printing what was read back gives the same text: the log is faithful to itself. -/
theorem C128_stable (P : ℕ) (hP : 0 < P) (q r : ℚ) (h : parseValue (general P q) = .num r) :
    general P r = general P q := by
  rw [general_reads P hP] at h
  have hr : readBack P q = r := by injection h
  subst hr
  by_cases hq : q = 0
  · subst hq; simp [readBack]
  have ha : 0 < |q| := abs_pos.2 hq
  have hs := significand_pos P hP ha
  have h1 : readBack P q = sgn q * shown P |q| := by unfold readBack; rw [if_neg hq]
  have h2 : |readBack P q| = shown P |q| := by rw [h1, abs_mul, abs_sgn, one_mul, abs_of_pos hs]
  have h3 : readBack P q ≠ 0 := by
    intro h0; rw [h0, abs_zero] at h2; exact hs.ne h2
  have h4 : sign (readBack P q) = sign q := by
    unfold sign
    rcases lt_or_gt_of_ne hq with hq | hq
    · rw [if_pos hq, if_pos (readBack_neg P hP hq).2]
    · rw [if_neg (not_lt.2 hq.le), if_neg (not_lt.2 (readBack_pos P hP hq).2.le)]
  unfold general
  rw [if_neg h3, if_neg hq, h2, significand_shown P hP ha, h4]

/-- C128: a score printed with `d` decimals is read back as the multiple of `1 / 10 ^ d` that is nearest to it. -/
theorem C128_fixed (d : ℕ) (hd : 0 < d) (q : ℚ) :
    ∃ (r : ℚ) (k : ℤ), parseValue (fixed d q) = .num r ∧ r = k / 10 ^ d ∧ |r - q| ≤ 1 / (2 * 10 ^ d) := by
  refine ⟨_, (if q < 0 then -1 else 1) * (roundHalfEven (|q| * 10 ^ d) : ℤ), fixed_value d hd q, ?_, ?_⟩
  · unfold sgn; push_cast; ring
  · have hpos : (0 : ℚ) < 10 ^ d := by positivity
    have h := round_nearest (x := |q| * 10 ^ d) (by positivity)
    unfold Reporter.Nearest at h
    have e : sgn q * (roundHalfEven (|q| * 10 ^ d) / 10 ^ d) - q =
        sgn q * ((roundHalfEven (|q| * 10 ^ d) - |q| * 10 ^ d) / 10 ^ d) := by
      have := sgn_abs q
      field_simp
      linear_combination (10 : ℚ) ^ d * this
    rw [e, abs_mul, abs_sgn, one_mul, abs_div, abs_of_pos hpos, div_le_div_iff₀ hpos (by positivity)]
    nlinarith

/-- C128: the order of scores printed with `d` decimals is kept. -/
theorem C128_fixed_order (d : ℕ) (hd : 0 < d) (q q' : ℚ) (h0 : 0 ≤ q) (h : q ≤ q') :
    ∃ r r', parseValue (fixed d q) = .num r ∧ parseValue (fixed d q') = .num r' ∧ r ≤ r' := by
  refine ⟨_, _, fixed_value d hd q, fixed_value d hd q', ?_⟩
  have hpos : (0 : ℚ) < 10 ^ d := by positivity
  unfold sgn
  rw [if_neg (not_lt.2 h0), if_neg (not_lt.2 (h0.trans h)), one_mul, one_mul, abs_of_nonneg h0, abs_of_nonneg (h0.trans h)]
  apply div_le_div_of_nonneg_right _ hpos.le
  have := round_mono (x := q * 10 ^ d) (by positivity) (mul_le_mul_of_nonneg_right h hpos.le)
  exact_mod_cast this

/-- C128: a score below half of the last decimal's unit is read back as zero. -/
theorem C128_fixed_zero (d : ℕ) (hd : 0 < d) (q : ℚ) (h0 : 0 ≤ q) (h : q < 1 / (2 * 10 ^ d)) :
    parseValue (fixed d q) = .num 0 := by
  rw [fixed_value d hd q]
  have hpos : (0 : ℚ) < 10 ^ d := by positivity
  have hx : q * 10 ^ d < 1 / 2 := by
    rw [lt_div_iff₀ (by positivity)] at h
    linarith
  have hn := round_nearest (x := |q| * 10 ^ d) (by positivity)
  unfold Reporter.Nearest at hn
  rw [abs_of_nonneg h0] at *
  have hz : roundHalfEven (q * 10 ^ d) = 0 := by
    by_contra hne
    have h1 : (1 : ℚ) ≤ roundHalfEven (q * 10 ^ d) := by exact_mod_cast Nat.one_le_iff_ne_zero.2 hne
    have := (abs_le.1 hn).2
    linarith
  rw [hz]
  simp

/-- C128: every number printed in either way is text that the log grepper reads as a value; and if it is not negative, as
a score. -/
theorem C128_readable (P : ℕ) (hP : 0 < P) (q : ℚ) :
    LogText.IsNumber (general P q) ∧ LogText.IsNumber (fixed P q) ∧
    (∀ c ∈ general P q, LogText.isNumChar c = true) ∧ (∀ c ∈ fixed P q, LogText.isNumChar c = true) := by
  have dig : ∀ ds : List (Fin 10), ∀ c ∈ ds.map digitChar, LogText.Digit c := by
    intro ds c hc
    obtain ⟨d, -, rfl⟩ := List.mem_map.1 hc
    unfold LogText.Digit
    have : ∀ d : Fin 10, '0' ≤ digitChar d ∧ digitChar d ≤ '9' := by decide
    exact this d
  have key : ∀ N : Numeral, N.Ok → N.neg ≠ some false → (∀ e, N.exp = some e → e.1 ≠ none) →
      LogText.IsNumber N.text ∧ ∀ c ∈ N.text, LogText.isNumChar c = true := by
    intro N hok hneg hexp
    have := LogText.C80_printed_numbers (signText N.neg) (N.whole.map digitChar) (fracText N.frac) (expText N.exp)
      (by
        cases h : N.neg with
        | none => exact .inl rfl
        | some b => cases b with
          | true => exact .inr rfl
          | false => exact absurd h hneg)
      ⟨by simpa using hok.1, dig _⟩
      (by
        cases h : N.frac with
        | none => exact .inl rfl
        | some f => exact .inr ⟨_, rfl, dig f⟩)
      (by
        cases h : N.exp with
        | none => exact .inl rfl
        | some e =>
          obtain ⟨sg, ds⟩ := e
          cases sg with
          | none => exact absurd rfl (hexp _ h)
          | some b =>
            exact .inr ⟨'e', if b then '-' else '+', ds.map digitChar, by cases b <;> rfl, .inl rfl, by cases b <;> simp, dig ds⟩)
    simpa [Numeral.text] using this
  obtain ⟨M, m1, m2, -, m4, m5⟩ := fixed_numeral P hP q
  have hM := key M m1 m4 (by rw [m5]; simp)
  rw [← m2] at hM
  by_cases hq : q = 0
  · have : general P q = ['0'] := by rw [hq]; simp [general]
    rw [this]
    exact ⟨⟨[], '0', [], rfl, .inl rfl, by decide, by simp⟩, hM.1, by decide, hM.2⟩
  · obtain ⟨N, n1, n2, -, n4, n5⟩ := general_numeral P hP q hq
    have hN := key N n1 n4 n5
    rw [← n2] at hN
    exact ⟨hN.1, hM.1, hN.2, hM.2⟩

/-! ### Widths -/

theorem pad_length (w n : ℕ) : (pad w n).length = w := by
  rw [pad_eq, List.length_map, padF_length]

theorem decimal_length (n j : ℕ) (h : n < 10 ^ (j + 1)) : (decimal n).length ≤ j + 1 := by
  unfold decimal
  rw [pad_length]
  by_cases h0 : n = 0
  · subst h0; simp
  · have := (Nat.log_lt_iff_lt_pow (by norm_num : 1 < 10) h0).2 h
    omega

/-- C128: a number that is not negative and printed with `P` significant digits takes at most `P + 5` characters, a
negative one at most one more (for numbers of ordinary magnitude, between `1e-99` and `1e99`). -/
theorem C128_width (P : ℕ) (hP : 0 < P) (q : ℚ) (hq : q = 0 ∨ (10 : ℚ) ^ (-99 : ℤ) ≤ |q| ∧ |q| < 10 ^ (99 : ℤ)) :
    (general P q).length ≤ P + 5 + (if q < 0 then 1 else 0) := by
  rcases hq with rfl | ⟨hlo, hhi⟩
  · simp [general]
  have ha : 0 < |q| := lt_of_lt_of_le (by positivity) hlo
  have h0 : q ≠ 0 := abs_pos.1 ha
  obtain ⟨hm1, hm2, hv⟩ := significand_facts P hP ha
  have hX : -99 ≤ (significand P |q|).2 ∧ (significand P |q|).2 ≤ 99 := by
    obtain ⟨b1, b2⟩ := log_bounds ha
    have c1 := (zpow_lt_zpow_iff_right₀ (by norm_num : (1 : ℚ) < 10)).1 (lt_of_le_of_lt b1 hhi)
    have c2 := (zpow_lt_zpow_iff_right₀ (by norm_num : (1 : ℚ) < 10)).1 (lt_of_le_of_lt hlo b2)
    unfold significand
    dsimp only
    split_ifs
    · dsimp only; omega
    · dsimp only; omega
  have hs : (sign q).length = if q < 0 then 1 else 0 := by unfold sign; split_ifs <;> rfl
  unfold general
  rw [if_neg h0]
  generalize significand P |q| = mX at *
  obtain ⟨m, X⟩ := mX
  dsimp only at *
  have hfr : ∀ d n, (fraction d n).length ≤ d + 1 := by
    intro d n
    have hst : (strip0 (pad d n)).length ≤ d := by
      unfold strip0
      rw [List.length_reverse]
      refine (List.dropWhile_sublist _).length_le.trans ?_
      rw [List.length_reverse, pad_length]
    unfold fraction
    dsimp only
    split_ifs
    · simp
    · simpa using hst
  have hdec : ∀ d j, P ≤ d + (j + 1) → (decimal (m / 10 ^ d)).length ≤ j + 1 := by
    intro d j h
    apply decimal_length
    apply Nat.div_lt_of_lt_mul
    rw [← pow_add]
    exact lt_of_lt_of_le hm2 (Nat.pow_le_pow_right (by norm_num) h)
  by_cases hr : -4 ≤ X ∧ X < P
  · rw [if_pos hr, List.length_append, List.length_append, hs]
    have h1 := hdec ((P - 1 : ℕ) - X).toNat X.toNat (by omega)
    have h2 := hfr ((P - 1 : ℕ) - X).toNat (m % 10 ^ ((P - 1 : ℕ) - X).toNat)
    omega
  · rw [if_neg hr, List.length_append, List.length_append, List.length_append, hs]
    have h1 := hdec (P - 1) 0 (by omega)
    have h2 := hfr (P - 1) (m % 10 ^ (P - 1))
    have h3 : (expo X).length = 4 := by
      unfold expo
      simp only [List.length_cons, pad_length]
      have : Nat.log 10 X.natAbs < 2 := by
        by_cases hx : X.natAbs = 0
        · rw [hx]; simp
        · exact (Nat.log_lt_iff_lt_pow (by norm_num : 1 < 10) hx).2 (by omega)
      omega
    omega

/-- C128: the columns of the printed table are aligned in the row of every parameter whose name has at most eleven characters
and whose values are not negative (and not of extreme magnitude). -/
theorem C128_aligned (p : LogText.Param) (tops : List LogText.Member) (hn : p.name.length ≤ 11)
    (hv : ∀ m ∈ tops, m.val p.name = 0 ∨ (10 : ℚ) ^ (-99 : ℤ) ≤ m.val p.name ∧ m.val p.name < 10 ^ (99 : ℤ))
    (k : ℕ) (m : LogText.Member) (hk : tops[k]? = some m) :
    let line := LogText.row p.name (tops.map fun m => LogText.columnValue (general 5) p (m.val p.name))
    let v := m.val p.name
    LogText.tableCell line k = (List.replicate (10 - (general 5 v).length) ' ' ++ general 5 v,
      LogText.suffix p v ++ List.replicate (2 - (LogText.suffix p v).length) ' ') ∧
    line.length = 13 + 13 * tops.length := by
  apply LogText.C81_aligned (general 5) p tops hn _ k m hk
  intro m hm
  have hnn : ¬ m.val p.name < 0 := by
    rcases hv m hm with h | h
    · rw [h]; simp
    · have : (0 : ℚ) < 10 ^ (-99 : ℤ) := by positivity
      linarith [h.1]
  have := C128_width 5 (by norm_num) (m.val p.name) (by
    rw [abs_of_nonneg (not_lt.1 hnn)]; exact hv m hm)
  rw [if_neg hnn] at this
  exact this

/-! ### The best individual, printed twice -/

theorem diffEnough_close {a b v : ℚ} (ha : |a - v| ≤ 1 / 400 * |v|) (hb : |b - v| ≤ 1 / 400 * |v|) :
    Lgg.diffEnough (1 / 100) a b = false := by
  unfold Lgg.diffEnough
  rw [abs_le] at ha hb
  by_cases hb0 : b = 0
  · have hv : v = 0 := by
      rcases lt_trichotomy v 0 with h | h | h
      · rw [abs_of_neg h] at hb; linarith
      · exact h
      · rw [abs_of_pos h] at hb; linarith
    subst hv
    simp only [abs_zero, mul_zero] at ha
    have : a = 0 := by linarith
    rw [if_pos hb0, this]
    simp
  · rw [if_neg hb0]
    simp only [decide_eq_false_iff_not, not_lt]
    rcases lt_trichotomy v 0 with h | h | h
    · rw [abs_of_neg h] at hb
      have hbn : b < 0 := by linarith
      exact (div_nonpos_of_nonneg_of_nonpos (abs_nonneg _) hbn.le).trans (by norm_num)
    · subst h
      simp only [abs_zero, mul_zero] at hb
      exact absurd (by linarith) hb0
    · rw [abs_of_pos h] at ha hb
      have hbp : 0 < b := by linarith
      rw [div_le_iff₀ hbp, abs_le]
      constructor <;> linarith

/-- C128: the best individual appears twice in the log of a finished run, with values of six and of five digits and with its
score in different formats.  If the score is not below 0.025, the log grepper does not take the two for different entries,
whichever comes first. -/
theorem C128_best_shown_once (q : ℚ) (hq : 1 / 40 ≤ q) (vs : List ℚ) :
    ∃ (s4 s5 : ℚ) (v5 v6 : List ℚ), parseValue (fixed 4 q) = .num s4 ∧ parseValue (general 5 q) = .num s5 ∧
      List.Forall₂ (fun v r => parseValue (general 5 v) = .num r) vs v5 ∧
      List.Forall₂ (fun v r => parseValue (general 6 v) = .num r) vs v6 ∧
      Lgg.differs (1 / 100) ⟨s4, v6⟩ ⟨s5, v5⟩ = false ∧ Lgg.differs (1 / 100) ⟨s5, v5⟩ ⟨s4, v6⟩ = false := by
  obtain ⟨s4, k, h4, -, hn4⟩ := C128_fixed 4 (by norm_num) q
  have c4 : |s4 - q| ≤ 1 / 400 * |q| := by
    rw [abs_of_pos (a := q) (by linarith)]
    refine hn4.trans ?_
    norm_num
    linarith
  have c5 : ∀ v : ℚ, |readBack 5 v - v| ≤ 1 / 400 * |v| := by
    intro v
    have h := readBack_relative 5 (by norm_num) v
    have hv := abs_nonneg v
    norm_num at h
    linarith
  have c6 : ∀ v : ℚ, |readBack 6 v - v| ≤ 1 / 400 * |v| := by
    intro v
    have h := readBack_relative 6 (by norm_num) v
    have hv := abs_nonneg v
    norm_num at h
    linarith
  have hF : ∀ P, 0 < P → List.Forall₂ (fun v r => parseValue (general P v) = .num r) vs (vs.map (readBack P)) := by
    intro P hP
    rw [List.forall₂_map_right_iff, List.forall₂_same]
    exact fun v _ => general_reads P hP v
  refine ⟨s4, readBack 5 q, vs.map (readBack 5), vs.map (readBack 6), h4, general_reads 5 (by norm_num) q,
    hF 5 (by norm_num), hF 6 (by norm_num), ?_, ?_⟩
  · unfold Lgg.differs
    rw [diffEnough_close c4 (c5 q), Bool.false_or, List.any_eq_false]
    intro x hx
    rw [List.zip_map'] at hx
    obtain ⟨v, -, rfl⟩ := List.mem_map.1 hx
    exact Bool.eq_false_iff.1 (diffEnough_close (c6 v) (c5 v))
  · unfold Lgg.differs
    rw [diffEnough_close (c5 q) c4, Bool.false_or, List.any_eq_false]
    intro x hx
    rw [List.zip_map'] at hx
    obtain ⟨v, -, rfl⟩ := List.mem_map.1 hx
    exact Bool.eq_false_iff.1 (diffEnough_close (c5 v) (c6 v))

/-! ### What the formats do not do -/

/-- C128: a small negative value takes eleven characters, one more than its column has, so that all columns to the right of it
are shifted by one. -/
theorem C128_too_wide :
    let p : LogText.Param := ⟨['x'], -1, 1⟩
    let a : LogText.Member := ⟨['1'], ['1'], fun _ => -12346 / 1000000000⟩
    let b : LogText.Member := ⟨['2'], ['2'], fun _ => 1 / 2⟩
    let line := LogText.row ['x'] ([a, b].map fun m => LogText.columnValue (general 5) p (m.val ['x']))
    general 5 (-12346 / 1000000000) = "-1.2346e-05".toList ∧
    line = "          x | -1.2346e-05          0.5  ".toList ∧
    LogText.tableCell line 1 ≠ ("       0.5".toList, [' ', ' ']) := by
  decide +kernel

/-- C128: two scores that differ by a factor of 1.5 only, far within the factor of two up to which the log grepper shows
entries, are shown both if they are printed with five significant digits; but printed with four decimals as
`Individual.__repr__` does, they are read back as 0 and 0.0001, and only the better one is shown. -/
theorem C128_small_scores :
    parseValue (general 5 (4 / 100000)) = .num (4 / 100000) ∧ parseValue (general 5 (6 / 100000)) = .num (6 / 100000) ∧
    Lgg.trim 2 (1 / 100) 40 [⟨4 / 100000, [1]⟩, ⟨6 / 100000, [2]⟩] = [⟨6 / 100000, [2]⟩, ⟨4 / 100000, [1]⟩] ∧
    parseValue (fixed 4 (4 / 100000)) = .num 0 ∧ parseValue (fixed 4 (6 / 100000)) = .num (1 / 10000) ∧
    Lgg.trim 2 (1 / 100) 40 [⟨0, [1]⟩, ⟨1 / 10000, [2]⟩] = [⟨0, [1]⟩] := by
  refine ⟨?_, ?_, by decide +kernel, ?_, ?_, by decide +kernel⟩
  · exact C128_exact 5 (by norm_num) 4 (-5) (by norm_num)
  · exact C128_exact 5 (by norm_num) 6 (-5) (by norm_num)
  · exact C128_fixed_zero 4 (by norm_num) _ (by norm_num) (by norm_num)
  · have : fixed 4 (6 / 100000) = "0.0001".toList := by decide +kernel
    rw [this]
    decide +kernel

/-! ### Examples -/

example : general 6 (1 / 3) = "0.333333".toList ∧ general 6 (-1000000) = "-1e+06".toList ∧
    general 5 (12345678) = "1.2346e+07".toList ∧ fixed 4 (10 / 3) = "3.3333".toList ∧
    general 6 (1 / 100000) = "1e-05".toList ∧ general 5 (999996) = "1e+06".toList := by decide +kernel

example := C128_general 6 (by norm_num) (-2 / 3) (by norm_num)

example := C128_zero 6 (by norm_num) (1 / 10 ^ 30)

example := C128_relative 6 (by norm_num) (-2 / 3)

example := C128_readable 6 (by norm_num) (-2 / 3)

example := C128_exact 6 (by norm_num) (-123456) (-3) (by norm_num)

example := C128_order 5 (by norm_num) (-2 / 3) (1 / 7) (by norm_num)

example := C128_stable 6 (by norm_num) (1 / 4) (1 / 4) (by
  have : general 6 (1 / 4) = "0.25".toList := by decide +kernel
  rw [this]; decide +kernel)

example := C128_fixed 4 (by norm_num) (2 / 3)

example := C128_fixed_order 4 (by norm_num) (2 / 3) (5 / 7) (by norm_num) (by norm_num)

example := C128_fixed_zero 4 (by norm_num) (1 / 30000) (by norm_num) (by norm_num)

example := C128_width 5 (by norm_num) (-1 / 7000) (.inr (by rw [abs_of_neg (by norm_num)]; norm_num))

example := C128_aligned ⟨['x'], 0, 10⟩ [⟨['1'], ['1'], fun _ => 3⟩, ⟨['2'], ['2'], fun _ => 0⟩] (by decide)
  (by intro m hm; simp only [List.mem_cons, List.not_mem_nil, or_false] at hm; rcases hm with rfl | rfl <;> norm_num) 1 ⟨['2'], ['2'], fun _ => 0⟩ rfl

example := C128_best_shown_once (1 / 3) (by norm_num) [-5, 0, 1 / 3]

end Format
end Ade
