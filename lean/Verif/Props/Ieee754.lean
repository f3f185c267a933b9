import Verif.Model.Ieee754
import Verif.Props.IdentityKey
import Verif.Props.Single
import Verif.Lemmas.Cases
import Mathlib.Tactic.IntervalCases

/-!
# C03 for the binary formats of IEEE 754

What the identity key tells and hides, for doubles as they are stored.
-/

set_option autoImplicit false

namespace Ade
namespace Ieee754

/-! ## Words and bytes -/

theorem ofDigits_inj (l m : List ℕ) (hl : ∀ x ∈ l, x < 256) (hm : ∀ x ∈ m, x < 256) (hlen : l.length = m.length)
    (h : Nat.ofDigits 256 l = Nat.ofDigits 256 m) : l = m := by
  induction l generalizing m with
  | nil => exact (List.length_eq_zero_iff.1 hlen.symm).symm
  | cons a l ih =>
    cases m with
    | nil => simp at hlen
    | cons b m =>
      have ha := hl a (by simp)
      have hb := hm b (by simp)
      rw [Nat.ofDigits_cons, Nat.ofDigits_cons] at h
      have hab : a = b := by omega
      have ht : Nat.ofDigits 256 l = Nat.ofDigits 256 m := by omega
      rw [hab, ih m (fun x hx => hl x (by simp [hx])) (fun x hx => hm x (by simp [hx])) (by simpa using hlen) ht]

theorem word_inj {n : ℕ} (x y : Fin n → Byte) (h : word x = word y) : x = y := by
  have hlt : ∀ z : Fin n → Byte, ∀ v ∈ (List.ofFn z).map Fin.val, v < 256 := by
    intro z v hv
    obtain ⟨b, -, rfl⟩ := List.mem_map.1 hv
    exact b.2
  have := ofDigits_inj _ _ (hlt x) (hlt y) (by simp) h
  exact List.ofFn_injective (List.map_injective_iff.2 Fin.val_injective this)

theorem word_lt {n : ℕ} (x : Fin n → Byte) : word x < 256 ^ n := by
  have := Nat.ofDigits_lt_base_pow_length (b := 256) (l := (List.ofFn x).map Fin.val) (by norm_num) (by
    intro v hv
    obtain ⟨b, -, rfl⟩ := List.mem_map.1 hv
    exact b.2)
  rwa [List.length_map, List.length_ofFn] at this

theorem word_bytes4 (w : ℕ) (h : w < 2 ^ 32) : word (bytes4 w) = w := by
  simp only [word, bytes4, List.ofFn_succ, List.ofFn_zero, List.map_cons, List.map_nil, Nat.ofDigits_cons, Nat.ofDigits_nil]
  simp only [Fin.val_zero, Fin.val_succ, pow_zero, Nat.div_one, zero_add, pow_one]
  norm_num at h ⊢
  omega

/-! ## Magnitudes -/

theorem magnitude_strictMono (p : ℕ) (low : ℤ) : StrictMono (magnitude p low) := by
  have hp : 0 < 2 ^ p := by positivity
  apply strictMono_nat_of_lt_succ
  intro k
  have h2 : (0 : ℚ) < 2 ^ low := by positivity
  have hm : k % 2 ^ p < 2 ^ p := Nat.mod_lt _ hp
  have hk : k = 2 ^ p * (k / 2 ^ p) + k % 2 ^ p := (Nat.div_add_mod k (2 ^ p)).symm
  generalize he : k / 2 ^ p = e at hk
  generalize hr : k % 2 ^ p = r at hk hm
  by_cases hc : r + 1 = 2 ^ p
  · have h1 : k + 1 = 2 ^ p * (e + 1) := by rw [mul_add, mul_one, ← hc, ← add_assoc, hc, ← hk]
    have e1 : (k + 1) / 2 ^ p = e + 1 := by rw [h1, Nat.mul_div_cancel_left _ hp]
    have r1 : (k + 1) % 2 ^ p = 0 := by rw [h1, Nat.mul_mod_right]
    unfold magnitude
    rw [e1, r1, he, hr, if_neg (Nat.succ_ne_zero e)]
    have hrq : ((r : ℕ) : ℚ) + 1 = (2 ^ p : ℕ) := by exact_mod_cast hc
    by_cases h0 : e = 0
    · rw [if_pos h0, h0]
      have : low + ((0 + 1 : ℕ) : ℤ) - 1 = low := by push_cast; ring
      rw [this]
      apply mul_lt_mul_of_pos_right _ h2
      push_cast at hrq ⊢
      linarith
    · rw [if_neg h0]
      have : low + ((e + 1 : ℕ) : ℤ) - 1 = (low + (e : ℕ) - 1) + 1 := by push_cast; ring
      rw [this, zpow_add_one₀ (by norm_num)]
      have h3 : (0 : ℚ) < 2 ^ (low + (e : ℕ) - 1) := by positivity
      push_cast at hrq ⊢
      nlinarith
  · have h1 : k + 1 = 2 ^ p * e + (r + 1) := by omega
    have hlt : r + 1 < 2 ^ p := by omega
    have e1 : (k + 1) / 2 ^ p = e := by
      rw [h1, Nat.mul_add_div hp, Nat.div_eq_of_lt hlt, add_zero]
    have r1 : (k + 1) % 2 ^ p = r + 1 := by rw [h1, Nat.mul_add_mod, Nat.mod_eq_of_lt hlt]
    unfold magnitude
    rw [e1, r1, he, hr]
    split_ifs with h0
    · apply mul_lt_mul_of_pos_right _ h2
      push_cast
      linarith
    · apply mul_lt_mul_of_pos_right _ (by positivity)
      push_cast
      linarith

theorem magnitude_zero (p : ℕ) (low : ℤ) : magnitude p low 0 = 0 := by
  unfold magnitude
  simp

theorem magnitude_nonneg (p : ℕ) (low : ℤ) (k : ℕ) : 0 ≤ magnitude p low k := by
  rw [← magnitude_zero p low]
  exact (magnitude_strictMono p low).monotone (Nat.zero_le k)

theorem magnitude_pos {p : ℕ} {low : ℤ} {k : ℕ} (h : k ≠ 0) : 0 < magnitude p low k := by
  rw [← magnitude_zero p low]
  exact magnitude_strictMono p low (Nat.pos_of_ne_zero h)

/-! ## Values -/

theorem split_word {a n m : ℕ} (h : n / 2 ^ a = m / 2 ^ a) (h' : n % 2 ^ a = m % 2 ^ a) : n = m := by
  rw [← Nat.div_add_mod n (2 ^ a), ← Nat.div_add_mod m (2 ^ a), h, h']

/-- A word is determined by its sign and its value. -/
theorem value_inj (p w : ℕ) (low : ℤ) (n m : ℕ) (hs : n / 2 ^ (p + w) = m / 2 ^ (p + w)) (h : value p w low n = value p w low m)
    (hn : value p w low n ≠ .nan) : n = m := by
  apply split_word hs
  unfold value at h hn
  dsimp only at h hn
  rw [← hs] at h
  generalize n % 2 ^ (p + w) = k at h hn ⊢
  generalize m % 2 ^ (p + w) = k' at h ⊢
  by_cases hk : k / 2 ^ p = 2 ^ w - 1
  · rw [if_pos hk] at h hn
    by_cases h0 : k % 2 ^ p = 0
    · rw [if_pos h0] at h
      by_cases hk' : k' / 2 ^ p = 2 ^ w - 1
      · rw [if_pos hk'] at h
        by_cases h0' : k' % 2 ^ p = 0
        · exact split_word (hk.trans hk'.symm) (h0.trans h0'.symm)
        · rw [if_neg h0'] at h
          split_ifs at h
      · rw [if_neg hk'] at h
        split_ifs at h
    · rw [if_neg h0] at hn
      exact absurd rfl hn
  · rw [if_neg hk] at h
    by_cases hk' : k' / 2 ^ p = 2 ^ w - 1
    · rw [if_pos hk'] at h
      split_ifs at h
    · rw [if_neg hk'] at h
      apply (magnitude_strictMono p low).injective
      split_ifs at h <;> simpa using h

/-- The sign can be told from the value, except for zero and NaN. -/
theorem value_sign (p w : ℕ) (low : ℤ) (n m : ℕ) (hn : n / 2 ^ (p + w) < 2) (hm : m / 2 ^ (p + w) < 2)
    (h : value p w low n = value p w low m) (h1 : value p w low n ≠ .nan) (h0 : value p w low n ≠ .fin 0) :
    n / 2 ^ (p + w) = m / 2 ^ (p + w) := by
  unfold value at h h1 h0
  dsimp only at h h1 h0
  generalize n / 2 ^ (p + w) = s at *
  generalize m / 2 ^ (p + w) = s' at *
  generalize n % 2 ^ (p + w) = k at *
  generalize m % 2 ^ (p + w) = k' at *
  have a := magnitude_nonneg p low k
  have a' := magnitude_nonneg p low k'
  interval_cases s <;> interval_cases s' <;> first | rfl | skip
  · simp only [if_false, if_true, zero_ne_one] at h h1 h0
    split_ifs at h h1 h0 <;> simp_all
    exact h0 (by linarith)
  · simp only [if_false, if_true, zero_ne_one] at h h1 h0
    split_ifs at h h1 h0 <;> simp_all
    exact h0 (by linarith)

theorem value_of (p w : ℕ) (low : ℤ) (s k : ℕ) (hk : k < 2 ^ (p + w)) : value p w low (s * 2 ^ (p + w) + k) =
    if k / 2 ^ p = 2 ^ w - 1 then if k % 2 ^ p = 0 then (if s = 1 then .ninf else .pinf) else .nan
    else .fin (if s = 1 then -magnitude p low k else magnitude p low k) := by
  have h1 : (s * 2 ^ (p + w) + k) % 2 ^ (p + w) = k := by
    rw [mul_comm, Nat.mul_add_mod, Nat.mod_eq_of_lt hk]
  have h2 : (s * 2 ^ (p + w) + k) / 2 ^ (p + w) = s := by
    rw [mul_comm, Nat.mul_add_div (by positivity), Nat.div_eq_of_lt hk, add_zero]
  unfold value
  rw [h1, h2]

/-! ## The conversion -/

theorem singleWord_spec {a : ℚ} (h0 : 0 ≤ a) (hm : Single.mag a = a) (hlt : a < 2 ^ 128) :
    singleWord a < 255 * 2 ^ 23 ∧ magnitude 23 (-149) (singleWord a) = a := by
  rcases h0.eq_or_lt with rfl | hpos
  · have : singleWord 0 = 0 := by unfold singleWord; rw [if_pos rfl]
    rw [this, magnitude_zero]
    exact ⟨by norm_num, rfl⟩
  have hl : -149 ≤ Single.lastPlace a := by unfold Single.lastPlace; omega
  have h2 : (0 : ℚ) < 2 ^ Single.lastPlace a := by positivity
  have hle : Single.lastPlace a ≤ 104 := by
    have h1 := (Single.log2_bounds hpos).1.trans_lt hlt
    have h3 : Int.log 2 a < (128 : ℕ) := by
      rw [← zpow_natCast] at h1
      exact (zpow_lt_zpow_iff_right₀ (by norm_num : (1 : ℚ) < 2)).1 h1
    unfold Single.lastPlace
    omega
  generalize hk : Reporter.roundHalfEven (a / 2 ^ Single.lastPlace a) = k
  have hak : a = k * 2 ^ Single.lastPlace a := by
    conv_lhs => rw [← hm]
    unfold Single.mag
    rw [hk]
  have hq : a / 2 ^ Single.lastPlace a = k := by rw [div_eq_iff h2.ne']; exact hak
  have hk24 : k < 2 ^ 24 := by
    have := Single.scaled_lt hpos
    rw [hq] at this
    exact_mod_cast this
  have hk23 : -149 < Single.lastPlace a → 2 ^ 23 ≤ k := by
    intro h
    have := Single.scaled_ge hpos h
    rw [hq] at this
    exact_mod_cast this
  obtain ⟨d, hd⟩ : ∃ d : ℕ, Single.lastPlace a = d - 149 := ⟨(Single.lastPlace a + 149).toNat, by omega⟩
  have hw : singleWord a = d * 2 ^ 23 + k := by
    unfold singleWord
    rw [if_neg hpos.ne', hq, Nat.floor_natCast, hd]
    congr 1
    omega
  rw [hw]
  rw [hd] at hk23 hle hak
  refine ⟨by omega, ?_⟩
  conv_rhs => rw [hak]
  unfold magnitude
  by_cases hk' : k < 2 ^ 23
  · have hd0 : d = 0 := by
      by_contra hne
      have := hk23 (by omega)
      omega
    subst hd0
    rw [if_pos (by omega), show (0 * 2 ^ 23 + k) % 2 ^ 23 = k by omega]
    norm_num
  · rw [if_neg (by omega), show 2 ^ 23 + (d * 2 ^ 23 + k) % 2 ^ 23 = k by omega,
      show (d * 2 ^ 23 + k) / 2 ^ 23 = d + 1 by omega]
    congr 2
    push_cast
    ring

theorem toSingle_fin_iff (q y : ℚ) : Single.toSingle (.fin q) = .fin y ↔ |q| < Single.limit ∧ y = Single.sg q := by
  rw [Single.toSingle_fin]
  by_cases h : |q| < Single.limit
  · rw [if_pos h]
    simp [h, eq_comm]
  · rw [if_neg h]
    simp only [h, false_and, iff_false]
    split_ifs <;> simp

theorem word_sign (x : Double) : word x / 2 ^ 63 < 2 := by
  have := word_lt x
  norm_num at this ⊢
  omega

/-- What the four bytes tell: the sign, and the value rounded to a float32. -/
theorem pack_spec (x : Double) (b : Ade.Single) (h : pack x = some b) :
    single b = Single.toSingle (double x) ∧ word b / 2 ^ 31 = word x / 2 ^ 63 := by
  have hs := word_sign x
  unfold pack at h
  dsimp only at h
  have key : ∀ k, k < 2 ^ 31 → b = bytes4 (word x / 2 ^ 63 * 2 ^ 31 + k) →
      word b = word x / 2 ^ 63 * 2 ^ 31 + k ∧ word b / 2 ^ 31 = word x / 2 ^ 63 := by
    intro k hk hb
    have : word b = word x / 2 ^ 63 * 2 ^ 31 + k := by rw [hb, word_bytes4 _ (by omega)]
    exact ⟨this, by omega⟩
  cases hd : double x with
  | nan =>
    rw [hd] at h
    have hb := (Option.some.inj h).symm
    have hr : word x % 2 ^ 51 / 2 ^ 29 < 2 ^ 22 := by omega
    generalize word x % 2 ^ 51 / 2 ^ 29 = r at hb hr
    rw [add_assoc] at hb
    obtain ⟨k1, k2⟩ := key _ (by omega) hb
    refine ⟨?_, k2⟩
    unfold single
    rw [k1]
    have := value_of 23 8 (-149) (word x / 2 ^ 63) (2 ^ 31 - 2 ^ 22 + r) (by omega)
    rw [show (23 + 8) = 31 from rfl] at this
    rw [this, if_pos (by omega), if_neg (by omega)]
    rfl
  | fin q =>
    rw [hd] at h
    dsimp only at h
    cases hy : Single.toSingle (.fin q) with
    | fin y =>
      rw [hy] at h
      have hb := (Option.some.inj h).symm
      obtain ⟨hlim, hyq⟩ := (toSingle_fin_iff q y).1 hy
      have hmag : Single.mag |y| = |y| := by
        rw [hyq, Single.abs_sg, Single.mag_idem _ (abs_nonneg q)]
      have hlt : |y| < 2 ^ 128 := by
        rw [hyq]
        exact (Single.sg_lt hlim).trans (by unfold Single.limit; norm_num)
      obtain ⟨w1, w2⟩ := singleWord_spec (abs_nonneg y) hmag hlt
      obtain ⟨k1, k2⟩ := key _ (by omega) hb
      refine ⟨?_, k2⟩
      unfold single
      rw [k1]
      have := value_of 23 8 (-149) (word x / 2 ^ 63) (singleWord |y|) (by omega)
      rw [show (23 + 8) = 31 from rfl] at this
      rw [this, if_neg (by omega), w2]
      have hq : (word x / 2 ^ 63 = 1 → q ≤ 0) ∧ (word x / 2 ^ 63 ≠ 1 → 0 ≤ q) := by
        unfold double value at hd
        dsimp only at hd
        rw [show (52 + 11) = 63 from rfl] at hd
        have hm := magnitude_nonneg 52 (-1074) (word x % 2 ^ 63)
        generalize magnitude 52 (-1074) (word x % 2 ^ 63) = M at hd hm
        by_cases hsg : word x / 2 ^ 63 = 1
        · refine ⟨fun _ => ?_, fun h => absurd hsg h⟩
          rw [if_pos hsg] at hd
          split_ifs at hd
          have := PyFloat.fin.inj hd
          linarith
        · refine ⟨fun h => absurd h hsg, fun _ => ?_⟩
          rw [if_neg hsg] at hd
          split_ifs at hd
          have := PyFloat.fin.inj hd
          linarith
      congr 1
      split_ifs with hsg
      · have : y ≤ 0 := by
          rw [hyq]
          have := Single.sg_mono (hq.1 hsg)
          rwa [Single.sg_nonneg le_rfl, Single.mag_zero] at this
        rw [abs_of_nonpos this, neg_neg]
      · have : 0 ≤ y := by
          rw [hyq, Single.sg_nonneg (hq.2 hsg)]
          exact Single.mag_nonneg q
        exact abs_of_nonneg this
    | nan => rw [hy] at h; cases h
    | ninf => rw [hy] at h; cases h
    | pinf => rw [hy] at h; cases h
  | ninf =>
    rw [hd] at h
    have hb := (Option.some.inj h).symm
    obtain ⟨k1, k2⟩ := key _ (by omega) hb
    refine ⟨?_, k2⟩
    have hsg : word x / 2 ^ 63 = 1 := by
      unfold double value at hd
      dsimp only at hd
      rw [show (52 + 11) = 63 from rfl] at hd
      split_ifs at hd with h1 h2 h3
      exact h3
    unfold single
    rw [k1]
    have := value_of 23 8 (-149) (word x / 2 ^ 63) (2 ^ 31 - 2 ^ 23) (by omega)
    rw [show (23 + 8) = 31 from rfl] at this
    rw [this, if_pos (by norm_num), if_pos (by norm_num), if_pos hsg]
    rfl
  | pinf =>
    rw [hd] at h
    have hb := (Option.some.inj h).symm
    obtain ⟨k1, k2⟩ := key _ (by omega) hb
    refine ⟨?_, k2⟩
    have hsg : word x / 2 ^ 63 ≠ 1 := by
      unfold double value at hd
      dsimp only at hd
      rw [show (52 + 11) = 63 from rfl] at hd
      split_ifs at hd with h1 h2 h3
      exact h3
    unfold single
    rw [k1]
    have := value_of 23 8 (-149) (word x / 2 ^ 63) (2 ^ 31 - 2 ^ 23) (by omega)
    rw [show (23 + 8) = 31 from rfl] at this
    rw [this, if_pos (by norm_num), if_pos (by norm_num), if_neg hsg]
    rfl

theorem pack_none (x : Double) : pack x = none ↔ ∃ q, double x = .fin q ∧ 2 ^ 128 - 2 ^ 103 ≤ |q| := by
  unfold pack
  dsimp only
  cases hd : double x with
  | nan => simp
  | ninf => simp
  | pinf => simp
  | fin q =>
    dsimp only
    constructor
    · intro h
      refine ⟨q, rfl, ?_⟩
      by_contra hlt
      have := (toSingle_fin_iff q (Single.sg q)).2 ⟨not_le.1 hlt, rfl⟩
      rw [this] at h
      cases h
    · rintro ⟨q', hq', hle⟩
      cases hq'
      cases hy : Single.toSingle (.fin q) with
      | fin y => exact absurd ((toSingle_fin_iff q y).1 hy).1 (not_lt.2 hle)
      | nan => rfl
      | ninf => rfl
      | pinf => rfl

/-- The sign bit, which zeros have as well. -/
def Negative (x : Double) : Prop := 2 ^ 63 ≤ word x

theorem negative_iff (x y : Double) : word x / 2 ^ 63 = word y / 2 ^ 63 ↔ (Negative x ↔ Negative y) := by
  have hx := word_lt x
  have hy := word_lt y
  unfold Negative
  norm_num at hx hy ⊢
  omega

theorem pack_same (x y : Double) (b : Ade.Single) (hx : pack x = some b) (hn : double x ≠ .nan) :
    pack y = some b ↔ pack y ≠ none ∧ Single.toSingle (double x) = Single.toSingle (double y) ∧ (Negative x ↔ Negative y) := by
  obtain ⟨s1, s2⟩ := pack_spec x b hx
  constructor
  · intro hy
    obtain ⟨t1, t2⟩ := pack_spec y b hy
    exact ⟨by simp [hy], s1.symm.trans t1, (negative_iff x y).1 (s2.symm.trans t2)⟩
  · rintro ⟨h1, h2, h3⟩
    obtain ⟨c, hc⟩ := Option.ne_none_iff_exists'.1 h1
    obtain ⟨t1, t2⟩ := pack_spec y c hc
    rw [hc]
    congr 1
    apply word_inj
    apply value_inj 23 8 (-149)
    · show word c / 2 ^ 31 = word b / 2 ^ 31
      rw [t2, s2, (negative_iff x y).2 h3]
    · show single c = single b
      rw [t1, s1, h2]
    · show single c ≠ .nan
      rw [t1, ← h2]
      cases hd : double x with
      | nan => exact absurd hd hn
      | ninf => simp [Single.toSingle]
      | pinf => simp [Single.toSingle]
      | fin q =>
        unfold Single.toSingle
        dsimp only
        split_ifs <;> simp

theorem double_inj (x y : Double) (h : double x = double y) (hn : double x ≠ .nan) (h0 : double x ≠ .fin 0) : x = y := by
  apply word_inj
  have hs := value_sign 52 11 (-1074) (word x) (word y) (word_sign x) (word_sign y) h hn h0
  exact value_inj 52 11 (-1074) (word x) (word y) hs h hn

theorem numEq_iff (x y : Double) : ieee.numEq x y = true ↔ double x = double y ∧ double x ≠ .nan := by
  show (double x).eq (double y) = true ↔ _
  cases double x <;> cases double y <;> simp [PyFloat.eq]

theorem identityKey_none (f : Ieee) (i : RawIndividual) : identityKey f i = none ↔ f.toSingle i.sse = none := by
  unfold identityKey
  cases f.toSingle i.sse <;> simp

/-! ## C03 for doubles -/

/-- C03, for doubles as they are stored: an individual whose score is not NaN has the same identity key as another one exactly if
their scores are the same when rounded to float32, with the same sign, and their values are bitwise the same (and the other one
has an identity key, see C03_overflow). -/
theorem C03_key_numbers (i j : RawIndividual) (b : List Byte) (hi : identityKey ieee i = some b) (hn : double i.sse ≠ .nan) :
    identityKey ieee j = some b ↔
      identityKey ieee j ≠ none ∧ Single.toSingle (double i.sse) = Single.toSingle (double j.sse) ∧
        (Negative i.sse ↔ Negative j.sse) ∧ i.values = j.values := by
  have hp : ∀ k : RawIndividual, ieee.toSingle k.sse = pack k.sse := fun _ => rfl
  have hnone : ∀ k : RawIndividual, identityKey ieee k = none ↔ pack k.sse = none := fun k => by
    rw [identityKey_none, hp]
  obtain ⟨s, hs⟩ : ∃ s, pack i.sse = some s := Option.ne_none_iff_exists'.1 fun h => by
    rw [(hnone i).2 h] at hi
    cases hi
  have same := pack_same i.sse j.sse s hs hn
  rw [C03_key_iff ieee i j b hi, hp, hp, hs]
  constructor
  · rintro ⟨⟨t, h1, h2⟩, h3⟩
    obtain ⟨q1, q2, q3⟩ := same.1 (by rw [h2, ← h1])
    exact ⟨fun h => q1 ((hnone j).1 h), q2, q3, h3⟩
  · rintro ⟨q1, q2, q3, h3⟩
    exact ⟨⟨s, rfl, same.2 ⟨fun h => q1 ((hnone j).2 h), q2, q3⟩⟩, h3⟩

/-- C03: an individual has no hash (OverflowError) exactly if its score is finite and from about 3.4e38 on. -/
theorem C03_overflow (h : List Byte → Int) (i : RawIndividual) :
    pyHash ieee h i = none ↔ ∃ q, double i.sse = .fin q ∧ 2 ^ 128 - 2 ^ 103 ≤ |q| := by
  rw [← pack_none]
  unfold pyHash
  rw [Option.map_eq_none_iff]
  exact identityKey_none ieee i

/-- C03: equal individuals are bitwise the same, and so have the same hash in every process, unless there is a zero among their
values or their score is zero. -/
theorem C03_equal_same_hash (h : List Byte → Int) (i j : RawIndividual) (hl : i.values.length = j.values.length)
    (heq : rawEq ieee i j = true) (h0 : double i.sse ≠ .fin 0) (hv : ∀ v ∈ i.values, double v ≠ .fin 0) :
    i = j ∧ pyHash ieee h i = pyHash ieee h j := by
  obtain ⟨e1, e2⟩ := (C03_rawEq_iff ieee i j hl).1 heq
  have hs : i.sse = j.sse := double_inj _ _ ((numEq_iff _ _).1 e1).1 ((numEq_iff _ _).1 e1).2 h0
  have hval : i.values = j.values := by
    apply List.ext_getElem hl
    intro k h1 h2
    have := (numEq_iff _ _).1 (e2 k h1)
    exact double_inj _ _ this.1 this.2 (hv _ (List.getElem_mem h1))
  have hij : i = j := by
    cases i; cases j
    cases hs; cases hval
    rfl
  exact ⟨hij, by rw [hij]⟩

/-- `0.0`, `-0.0` and `1.0`. -/
def zero : Double := fun _ => 0
def negZero : Double := fun k => if k = 7 then 128 else 0
def one : Double := fun k => if k = 7 then 63 else if k = 6 then 240 else 0

/-- C03, negation: `0.0` and `-0.0` make individuals that compare equal and have different identity keys. -/
theorem C03_signed_zeros : ∃ i j : RawIndividual, i.values.length = j.values.length ∧ rawEq ieee i j = true ∧
    identityKey ieee i ≠ identityKey ieee j ∧ ∃ h : List Byte → Int, pyHash ieee h i ≠ pyHash ieee h j := by
  have h : rawEq ieee ⟨one, [zero]⟩ ⟨one, [negZero]⟩ = true := by decide +kernel
  have hne : identityKey ieee ⟨one, [zero]⟩ ≠ identityKey ieee ⟨one, [negZero]⟩ := by decide +kernel
  refine ⟨⟨one, [zero]⟩, ⟨one, [negZero]⟩, rfl, h, hne, fun b => if some b = identityKey ieee ⟨one, [zero]⟩ then 1 else 0, ?_⟩
  decide +kernel

example : double one = .fin 1 ∧ double zero = .fin 0 ∧ double negZero = .fin 0 ∧ (pack one).map List.ofFn = some [0, 0, 128, 63] := by
  decide +kernel

example : (identityKey ieee ⟨one, [zero, one]⟩).map List.length = some 20 := by decide +kernel

example := C03_key_numbers ⟨one, [zero]⟩ ⟨one, [negZero]⟩ _
  (eq_get (o := identityKey ieee ⟨one, [zero]⟩) (by decide +kernel)) (by decide +kernel)

example := C03_equal_same_hash (fun b => b.length) ⟨one, [one]⟩ ⟨one, [one]⟩ rfl (by decide +kernel) (by decide +kernel)
  (by decide +kernel)

/-- The largest finite double is too large. -/
example : pyHash ieee (fun b => b.length) ⟨fun k => if k = 7 then 127 else if k = 6 then 239 else 255, []⟩ = none := by
  decide +kernel

end Ieee754
end Ade
