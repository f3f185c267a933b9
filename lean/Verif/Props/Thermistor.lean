import Verif.Model.Thermistor
import Verif.Props.EarlyAbort
import Mathlib.Tactic.IntervalCases

/-!
# Properties C94 and C95: the thermistor example
-/

set_option autoImplicit false

namespace Ade
namespace Thermistor

section
variable {K : Type} [Field K] [LinearOrder K] [IsStrictOrderedRing K]

theorem sumLoop_spec (x : Option K) (terms : List K) (ht : ∀ a ∈ terms, 0 ≤ a) : ∀ acc : K,
    ((sumLoop (stopTest x) acc terms).2 = false ∧ (sumLoop (stopTest x) acc terms).1 = acc + terms.sum) ∨
      ((sumLoop (stopTest x) acc terms).2 = true ∧ ∃ y, x = some y ∧ y < (sumLoop (stopTest x) acc terms).1 ∧
        (sumLoop (stopTest x) acc terms).1 ≤ acc + terms.sum) := by
  induction terms with
  | nil => intro acc; left; simp [sumLoop]
  | cons a l ih =>
    intro acc
    rw [sumLoop]
    split
    · rename_i hs
      right
      unfold stopTest at hs
      cases x with
      | none => cases hs
      | some y =>
        simp only [Bool.and_eq_true, decide_eq_true_eq] at hs
        refine ⟨rfl, y, rfl, hs.2, ?_⟩
        have : 0 ≤ l.sum := List.sum_nonneg fun b hb => ht b (List.mem_cons_of_mem _ hb)
        rw [List.sum_cons]
        linarith
    · rw [List.sum_cons, ← add_assoc]
      exact ih (fun b hb => ht b (List.mem_cons_of_mem _ hb)) _

omit [IsStrictOrderedRing K] in
theorem sumLoop_none (terms : List K) : ∀ acc : K, sumLoop (stopTest none) acc terms = (acc + terms.sum, false) := by
  induction terms with
  | nil => intro acc; simp [sumLoop]
  | cons a l ih => intro acc; rw [sumLoop, if_neg (by simp [stopTest]), ih, List.sum_cons, add_assoc]

omit [IsStrictOrderedRing K] in
theorem penaltyLoop_none (drifts : List K) : ∀ acc : K,
    penaltyLoop (stopTest none) acc drifts = acc * (drifts.map fun d => 1 + 1 / 10 * d ^ 4).prod := by
  induction drifts with
  | nil => intro acc; simp [penaltyLoop]
  | cons d l ih => intro acc; rw [penaltyLoop, if_neg (by simp [stopTest]), ih, List.map_cons, List.prod_cons, mul_assoc]

theorem penalty_ge_one (drifts : List K) : 1 ≤ (drifts.map fun d => 1 + 1 / 10 * d ^ 4).prod := by
  induction drifts with
  | nil => simp
  | cons d l ih =>
    rw [List.map_cons, List.prod_cons]
    have h : 1 ≤ 1 + 1 / 10 * d ^ 4 := by
      have : 0 ≤ d ^ 4 := by positivity
      linarith
    exact one_le_mul_of_one_le_of_one_le h ih

theorem penaltyLoop_spec (x : Option K) (drifts : List K) : ∀ acc : K, 0 ≤ acc →
    penaltyLoop (stopTest x) acc drifts = acc * (drifts.map fun d => 1 + 1 / 10 * d ^ 4).prod ∨
      ∃ y, x = some y ∧ y < penaltyLoop (stopTest x) acc drifts ∧
        penaltyLoop (stopTest x) acc drifts ≤ acc * (drifts.map fun d => 1 + 1 / 10 * d ^ 4).prod := by
  induction drifts with
  | nil => intro acc _; left; simp [penaltyLoop]
  | cons d l ih =>
    intro acc hacc
    have hd : 0 ≤ d ^ 4 := by positivity
    have hacc' : 0 ≤ acc * (1 + 1 / 10 * d ^ 4) := by positivity
    rw [penaltyLoop, List.map_cons, List.prod_cons, ← mul_assoc]
    split
    · rename_i hs
      right
      unfold stopTest at hs
      cases x with
      | none => cases hs
      | some y =>
        simp only [Bool.and_eq_true, decide_eq_true_eq] at hs
        exact ⟨y, rfl, hs.2, le_mul_of_one_le_right hacc' (penalty_ge_one l)⟩
    · exact ih _ hacc'

theorem sumLoop_nonneg (stop : K → Bool) (terms : List K) (ht : ∀ a ∈ terms, 0 ≤ a) : ∀ acc : K, 0 ≤ acc →
    0 ≤ (sumLoop stop acc terms).1 := by
  induction terms with
  | nil => intro acc h; exact h
  | cons a l ih =>
    intro acc h
    have ha := ht a (by simp)
    rw [sumLoop]
    split
    · exact add_nonneg h ha
    · exact ih (fun b hb => ht b (List.mem_cons_of_mem _ hb)) _ (add_nonneg h ha)

theorem penaltyLoop_nonneg (stop : K → Bool) (drifts : List K) : ∀ acc : K, 0 ≤ acc →
    0 ≤ penaltyLoop stop acc drifts := by
  induction drifts with
  | nil => intro acc h; exact h
  | cons d l ih =>
    intro acc h
    have hd : 0 ≤ d ^ 4 := by positivity
    have h' : 0 ≤ acc * (1 + 1 / 10 * d ^ 4) := by positivity
    rw [penaltyLoop]
    split
    · exact h'
    · exact ih _ h'

theorem evaluate_nonneg (terms drifts : List K) (ht : ∀ a ∈ terms, 0 ≤ a) (x : Option K) :
    0 ≤ evaluate terms drifts x := by
  unfold evaluate
  dsimp only
  split
  · exact sumLoop_nonneg _ _ ht 0 le_rfl
  · exact penaltyLoop_nonneg _ _ _ (sumLoop_nonneg _ _ ht 0 le_rfl)

omit [IsStrictOrderedRing K] in
/-- The complete score: the sum of the squared residuals times the penalties. -/
theorem evaluate_none (terms drifts : List K) :
    evaluate terms drifts none = terms.sum * (drifts.map fun d => 1 + 1 / 10 * d ^ 4).prod := by
  unfold evaluate
  rw [sumLoop_none]
  simp only [Bool.false_eq_true, if_false, zero_add, penaltyLoop_none]

/-- C94: the evaluation of the thermistor example stops early only when the complete score would be worse than the score
to beat; what it returns then is also worse than that, and not above the complete score. -/
theorem C94_thermistor_stop (terms drifts : List K) (ht : ∀ a ∈ terms, 0 ≤ a) (x : Option K) :
    evaluate terms drifts x = evaluate terms drifts none ∨
      ∃ y, x = some y ∧ y < evaluate terms drifts x ∧ evaluate terms drifts x ≤ evaluate terms drifts none := by
  rw [evaluate_none]
  unfold evaluate
  dsimp only
  have hsum : 0 ≤ terms.sum := List.sum_nonneg ht
  rcases sumLoop_spec x terms ht 0 with ⟨h1, h2⟩ | ⟨h1, y, hx, h2, h3⟩
  · rw [h1, h2]
    simp only [Bool.false_eq_true, if_false, zero_add]
    exact penaltyLoop_spec x drifts _ hsum
  · rw [h1]
    simp only [if_true]
    rw [zero_add] at h3
    exact .inr ⟨y, hx, h2, h3.trans (le_mul_of_one_le_right hsum (penalty_ge_one drifts))⟩

omit [IsStrictOrderedRing K] in
/-- C94: a score of zero to beat counts as none: the score is complete. -/
theorem C94_thermistor_zero (terms drifts : List K) : evaluate terms drifts (some 0) = evaluate terms drifts none := by
  have h : stopTest (some (0 : K)) = stopTest none := by
    funext y
    simp [stopTest]
  unfold evaluate
  rw [h]

/-- C94: the evaluation does save time: with a positive score to beat, no thermistor is looked at after the one with which the
sum exceeds it. -/
theorem C94_thermistor_saves (before after : List K) (a : K) (drifts : List K) (x : K) (hx : 0 < x) (hb : ∀ b ∈ before, 0 ≤ b)
    (h1 : before.sum ≤ x) (h2 : x < before.sum + a) :
    evaluate (before ++ a :: after) drifts (some x) = before.sum + a := by
  have key : ∀ (l : List K) (acc : K), (∀ b ∈ l, 0 ≤ b) → acc + l.sum ≤ x → x < acc + l.sum + a →
      sumLoop (stopTest (some x)) acc (l ++ a :: after) = (acc + l.sum + a, true) := by
    intro l
    induction l with
    | nil =>
      intro acc _ _ h
      rw [List.sum_nil, add_zero] at h ⊢
      rw [List.nil_append, sumLoop, if_pos (by simp [stopTest, hx.ne', h])]
    | cons b l ih =>
      intro acc hl h h'
      rw [List.sum_cons, ← add_assoc] at h h' ⊢
      have hn := List.sum_nonneg fun c hc => hl c (List.mem_cons_of_mem _ hc)
      rw [List.cons_append, sumLoop, if_neg (by
        have : acc + b ≤ x := by linarith
        simp [stopTest, not_lt.2 this])]
      exact ih (acc + b) (fun c hc => hl c (List.mem_cons_of_mem _ hc)) h h'
  unfold evaluate
  rw [key before 0 hb (by rwa [zero_add]) (by rwa [zero_add]), zero_add]
  rfl

end

/-- The evaluation function of the example as one of a run; the sums of squared residuals and the drifts of the values
are given. -/
def asEval (terms drifts : List ℚ → List ℚ) : ℕ → List ℚ → Option PyFloat → Individual.EvalResult :=
  fun _ v x => .done (some (.fin (evaluate (terms v) (drifts v)
    (match x with | some (.fin q) => some q | _ => none))))

/-- C94: hence `xSSE` changes nothing about the population in the thermistor example (see C94_early_abort). -/
theorem C94_thermistor (terms drifts : List ℚ → List ℚ) (ht : ∀ v, ∀ a ∈ terms v, 0 ≤ a) :
    Challenge.SoundAbort (asEval terms drifts) := by
  have hle : ∀ q : ℚ, 0 ≤ q → PyFloat.le .zero (.fin q) = true := fun q h => by
    simpa [PyFloat.le, PyFloat.lt, PyFloat.eq, PyFloat.zero, ← le_iff_lt_or_eq] using h
  intro n v x
  unfold asEval
  have hnn : 0 ≤ evaluate (terms v) (drifts v) none := evaluate_nonneg _ _ (ht v) _
  cases x with
  | nan => left; rfl
  | pinf => left; rfl
  | ninf => left; rfl
  | fin q =>
    dsimp only
    rcases C94_thermistor_stop (terms v) (drifts v) (ht v) (some q) with h | ⟨y, hy, h1, h2⟩
    · left; rw [h]
    · right
      obtain rfl : q = y := by simpa using hy
      refine ⟨_, _, rfl, rfl, hle _ hnn, ?_, ?_, ?_⟩
      · exact hle _ (evaluate_nonneg _ _ (ht v) _)
      · simp only [PyFloat.lt, decide_eq_false_iff_not, not_lt]; linarith
      · simp only [PyFloat.lt, decide_eq_false_iff_not, not_lt]; linarith

/-! ## C95: parameters -/

/-- The names a user expects: four coefficients for all thermistors, and four scaling factors for each of the six. -/
def expectedNames : List (List Char) :=
  ["A", "B", "C", "D", "a1", "b1", "c1", "d1", "a2", "b2", "c2", "d2", "a3", "b3", "c3", "d3", "a4", "b4", "c4", "d4",
    "a5", "b5", "c5", "d5", "a6", "b6", "c6", "d6"].map String.toList

theorem names_eq : names = expectedNames := by decide +kernel

/-- The value of a named parameter. -/
def IsValue {K : Type} (values : List K) (name : List Char) (v : K) : Prop :=
  ∃ k : ℕ, names[k]? = some name ∧ values[k]? = some v

theorem isValue_index {K : Type} [Inhabited K] (values : List K) (hl : values.length = names.length) (x : List Char)
    (hx : x ∈ names) : IsValue values x (values.getD (index x) default) := by
  have hi : index x < names.length := List.idxOf_lt_length_iff.2 hx
  refine ⟨index x, ?_, ?_⟩
  · rw [List.getElem?_eq_getElem hi]
    exact congrArg some (List.getElem_idxOf hi)
  · rw [List.getD_eq_getElem?_getD, List.getElem?_eq_getElem (hl ▸ hi)]; rfl

/-- C95: the curve of thermistor `k` gets the four common coefficients and the four scaling factors of thermistor `k`, in
the order in which it uses them. -/
theorem C95_arguments {K : Type} [Inhabited K] (values : List K) (hl : values.length = 28) (k : ℕ) (hk : 1 ≤ k ∧ k ≤ 6) :
    names = expectedNames ∧ names.Nodup ∧
      List.Forall₂ (IsValue values)
        [['A'], ['B'], ['C'], ['D'], ['a', Nat.digitChar k], ['b', Nat.digitChar k], ['c', Nat.digitChar k],
          ['d', Nat.digitChar k]] (values2args values k) := by
  have hlen : values.length = names.length := by rw [hl]; decide +kernel
  refine ⟨names_eq, by decide +kernel, ?_⟩
  have h : ∀ x, x ∈ names → IsValue values x (values.getD (index x) default) := isValue_index values hlen
  have hmem : ∀ p ∈ ['a', 'b', 'c', 'd'], [p, Nat.digitChar k] ∈ names := by
    obtain ⟨h1, h2⟩ := hk
    interval_cases k <;> decide +kernel
  refine .cons (h _ (by decide +kernel)) (.cons (h _ (by decide +kernel)) (.cons (h _ (by decide +kernel))
    (.cons (h _ (by decide +kernel)) (.cons (h _ (hmem 'a' (by simp))) (.cons (h _ (hmem 'b' (by simp)))
      (.cons (h _ (hmem 'c' (by simp))) (.cons (h _ (hmem 'd' (by simp))) .nil)))))))

/-- Values within the bounds of the example. -/
def WithinBounds (values : List ℝ) : Prop :=
  List.Forall₂ (fun (b : ℚ × ℚ) (v : ℝ) => (b.1 : ℝ) ≤ v ∧ v ≤ b.2) bounds values

theorem bounds_pos : ∀ b ∈ bounds, 0 < b.1 := by decide +kernel

theorem within_pos {values : List ℝ} (h : WithinBounds values) : values.length = 28 ∧ ∀ v ∈ values, 0 < v := by
  refine ⟨h.length_eq.symm.trans (by decide +kernel), ?_⟩
  have hb := bounds_pos
  unfold WithinBounds at h
  generalize bounds = bs at h hb
  induction h with
  | nil => simp
  | cons hv _ ih =>
    intro v hm
    rcases List.mem_cons.1 hm with rfl | hm
    · exact lt_of_lt_of_le (Rat.cast_pos.2 (hb _ List.mem_cons_self)) hv.1
    · exact ih (fun b hb' => hb b (List.mem_cons_of_mem _ hb')) v hm

/-- C95: with all parameters within their bounds, the temperature that the curve gives for a resistance of at least 1 Ohm
is above absolute zero, and a higher resistance gives a lower temperature. -/
theorem C95_curve_decreasing (values : List ℝ) (hv : WithinBounds values) (k : ℕ) (hk : 1 ≤ k ∧ k ≤ 6) (R R' : ℝ)
    (hR : 1 ≤ R) (hRR : R < R') :
    -273.15 < curve R' (values2args values k) ∧ curve R' (values2args values k) < curve R (values2args values k) := by
  obtain ⟨hl, hpos⟩ := within_pos hv
  have hargs := (C95_arguments values hl k hk).2.2
  have hp : ∀ v ∈ values2args values k, 0 < v := by
    intro v hm
    obtain ⟨i, hi, rfl⟩ := List.getElem_of_mem hm
    obtain ⟨q, -, hq⟩ := List.forall₂_iff_get.1 hargs |>.2 i (by rw [hargs.length_eq]; exact hi) hi
    exact hpos _ (List.mem_of_getElem? hq)
  have hlen : (values2args values k).length = 8 := hargs.length_eq.symm
  have hget : ∀ i, i < 8 → 0 < (values2args values k).getD i 0 := by
    intro i hi
    rw [List.getD_eq_getElem?_getD, List.getElem?_eq_getElem (by omega)]
    exact hp _ (List.getElem_mem _)
  generalize values2args values k = args at hget
  have h0 : 0 ≤ Real.log R := Real.log_nonneg hR
  have h1 : Real.log R < Real.log R' := Real.log_lt_log (by linarith) hRR
  unfold curve
  dsimp only
  have p0 : 0 < args.getD 0 0 * args.getD (0 + 4) 0 := mul_pos (hget _ (by omega)) (hget _ (by omega))
  have p1 : 0 < args.getD 1 0 * args.getD (1 + 4) 0 := mul_pos (hget _ (by omega)) (hget _ (by omega))
  have p2 : 0 < args.getD 2 0 * args.getD (2 + 4) 0 := mul_pos (hget _ (by omega)) (hget _ (by omega))
  have p3 : 0 < args.getD 3 0 * args.getD (3 + 4) 0 := mul_pos (hget _ (by omega)) (hget _ (by omega))
  generalize args.getD 0 0 * args.getD (0 + 4) 0 = a at p0
  generalize args.getD 1 0 * args.getD (1 + 4) 0 = b at p1
  generalize args.getD 2 0 * args.getD (2 + 4) 0 = c at p2
  generalize args.getD 3 0 * args.getD (3 + 4) 0 = d at p3
  generalize Real.log R = x at h0 h1
  generalize Real.log R' = y at h1
  have hy : 0 < y := lt_of_le_of_lt h0 h1
  have e1 : 0 < a + b * x + c * x ^ 2 + d * x ^ 3 := by positivity
  have e2 : a + b * x + c * x ^ 2 + d * x ^ 3 < a + b * y + c * y ^ 2 + d * y ^ 3 := by
    have s1 : b * x < b * y := mul_lt_mul_of_pos_left h1 p1
    have s2 : c * x ^ 2 ≤ c * y ^ 2 := mul_le_mul_of_nonneg_left (pow_le_pow_left₀ h0 h1.le 2) p2.le
    have s3 : d * x ^ 3 ≤ d * y ^ 3 := mul_le_mul_of_nonneg_left (pow_le_pow_left₀ h0 h1.le 3) p3.le
    linarith
  have e3 := one_div_lt_one_div_of_lt e1 e2
  have e4 : 0 < 1 / (a + b * y + c * y ^ 2 + d * y ^ 3) := by positivity
  constructor <;> linarith

theorem ratios_at (values : List ℝ) (q : Char) (i : ℕ)
    (h : (names.filter fun x => x.head? == some q.toLower).map index = [4, 8, 12, 16, 20, 24].map (· + i)) :
    ratios values q = [4, 8, 12, 16, 20, 24].map fun j => values.getD (j + i) 0 := by
  unfold ratios
  have : (names.filter fun x => x.head? == some q.toLower).map (fun x => values.getD (index x) default) =
      ((names.filter fun x => x.head? == some q.toLower).map index).map fun j => values.getD j 0 := by
    rw [List.map_map]; rfl
  rw [this, h, List.map_map]; rfl

/-- The scaling factors of each kind are those of the six thermistors. -/
theorem ratios_eq (values : List ℝ) :
    List.Forall₂ (fun p i => ratios values p = [4, 8, 12, 16, 20, 24].map fun j => values.getD (j + i) 0)
      prefixes [0, 1, 2, 3] :=
  .cons (ratios_at values 'A' 0 (by decide +kernel)) (.cons (ratios_at values 'B' 1 (by decide +kernel))
    (.cons (ratios_at values 'C' 2 (by decide +kernel)) (.cons (ratios_at values 'D' 3 (by decide +kernel)) .nil)))

theorem prod_eq_one_of_ge (l : List ℝ) (h : ∀ x ∈ l, 1 ≤ x) : l.prod = 1 ↔ ∀ x ∈ l, x = 1 := by
  induction l with
  | nil => simp
  | cons a l ih =>
    have ha := h a (by simp)
    have hl : ∀ x ∈ l, 1 ≤ x := fun x hx => h x (List.mem_cons_of_mem _ hx)
    have hp : 1 ≤ l.prod := by
      clear ih h
      induction l with
      | nil => simp
      | cons b l ih' =>
        rw [List.prod_cons]
        exact one_le_mul_of_one_le_of_one_le (hl b (by simp)) (ih' fun x hx => hl x (List.mem_cons_of_mem _ hx))
    rw [List.prod_cons, List.forall_mem_cons, ← ih hl]
    constructor
    · intro he
      have h1 : a = 1 := by nlinarith
      exact ⟨h1, by rw [h1, one_mul] at he; exact he⟩
    · rintro ⟨rfl, h2⟩; rw [h2, one_mul]

/-- C95: the complete score is the sum of the weighted squared residuals of the six thermistors times a penalty of at
least one, and the penalty is one exactly if, for each kind of scaling factor, the product of the six factors (hence
their geometric mean) is one. -/
theorem C95_penalty (data : ℕ → List (ℝ × ℝ × ℝ)) (values : List ℝ) (hv : WithinBounds values) :
    ∃ penalty : ℝ, 1 ≤ penalty ∧
      score data values none =
        ((List.range 6).map fun k => residuals (data (k + 1)) (values2args values (k + 1))).sum * penalty ∧
      (penalty = 1 ↔ ∀ i, i < 4 → (([4, 8, 12, 16, 20, 24].map fun j => values.getD (j + i) 0).prod : ℝ) = 1) := by
  refine ⟨((prefixes.map (drift values)).map fun d => 1 + 1 / 10 * d ^ 4).prod, penalty_ge_one _, evaluate_none _ _, ?_⟩
  obtain ⟨hl, hpos⟩ := within_pos hv
  rw [prod_eq_one_of_ge _ (by
    intro x hx
    obtain ⟨d, -, rfl⟩ := List.mem_map.1 hx
    have : 0 ≤ d ^ 4 := by positivity
    linarith)]
  -- the drift is the logarithm of the product
  have hprod : ∀ i, i < 4 → 0 < (([4, 8, 12, 16, 20, 24].map fun j => values.getD (j + i) 0).prod : ℝ) ∧
      (([4, 8, 12, 16, 20, 24].map fun j => values.getD (j + i) 0).map Real.log).sum =
        Real.log ([4, 8, 12, 16, 20, 24].map fun j => values.getD (j + i) 0).prod := by
    intro i hi
    have g : ∀ j, j < 28 → 0 < values.getD j 0 := by
      intro j hj
      rw [List.getD_eq_getElem?_getD, List.getElem?_eq_getElem (by omega)]
      exact hpos _ (List.getElem_mem _)
    have q4 := g (4 + i) (by omega)
    have q8 := g (8 + i) (by omega)
    have q12 := g (12 + i) (by omega)
    have q16 := g (16 + i) (by omega)
    have q20 := g (20 + i) (by omega)
    have q24 := g (24 + i) (by omega)
    simp only [List.map_cons, List.map_nil, List.prod_cons, List.prod_nil, List.sum_cons, List.sum_nil, mul_one, add_zero]
    refine ⟨by positivity, ?_⟩
    rw [Real.log_mul (by positivity) (by positivity), Real.log_mul (by positivity) (by positivity),
      Real.log_mul (by positivity) (by positivity), Real.log_mul (by positivity) (by positivity),
      Real.log_mul (by positivity) (by positivity)]
  have hzero : ∀ d : ℝ, 1 + 1 / 10 * d ^ 4 = 1 ↔ d = 0 := by
    intro d
    constructor
    · intro h
      have : d ^ 4 = 0 := by linarith
      exact pow_eq_zero_iff (by norm_num) |>.1 this
    · rintro rfl; norm_num
  have hone : ∀ x : ℝ, 0 < x → (Real.log x = 0 ↔ x = 1) := by
    intro x hx
    constructor
    · intro h; exact Real.eq_one_of_pos_of_log_eq_zero hx h
    · rintro rfl; exact Real.log_one
  have r : ∀ p i, ratios values p = ([4, 8, 12, 16, 20, 24].map fun j => values.getD (j + i) 0) → i < 4 →
      (1 + 1 / 10 * (drift values p) ^ 4 = 1 ↔
        (([4, 8, 12, 16, 20, 24].map fun j => values.getD (j + i) 0).prod : ℝ) = 1) := by
    intro p i h hi
    obtain ⟨h1, h2⟩ := hprod i hi
    rw [hzero, drift, h, h2, hone _ h1]
  have hr := List.forall₂_iff_get.1 (ratios_eq values)
  constructor
  · intro h i hi
    have h2 := hr.2 i (by simpa [prefixes] using hi) (by simpa using hi)
    have hi' : [0, 1, 2, 3].get ⟨i, by simpa using hi⟩ = i := by interval_cases i <;> rfl
    rw [hi'] at h2
    exact (r _ i h2 hi).1 (h _ (List.mem_map.2 ⟨_, List.mem_map.2 ⟨_, List.get_mem _ _, rfl⟩, rfl⟩))
  · intro h x hx
    obtain ⟨d, hd, rfl⟩ := List.mem_map.1 hx
    obtain ⟨p, hp, rfl⟩ := List.mem_map.1 hd
    obtain ⟨i, hi, rfl⟩ := List.getElem_of_mem hp
    have hi4 : i < 4 := by simpa [prefixes] using hi
    have h2 := hr.2 i hi (by simpa using hi4)
    have hi' : [0, 1, 2, 3].get ⟨i, by simpa using hi4⟩ = i := by interval_cases i <;> rfl
    rw [hi'] at h2
    exact (r _ i h2 hi4).2 (h i hi4)

theorem isValue_unique {K : Type} (values : List K) (x : List Char) (v w : K) (hv : IsValue values x v) (hw : IsValue values x w) :
    v = w := by
  obtain ⟨i, h1, h2⟩ := hv
  obtain ⟨j, h3, h4⟩ := hw
  have hn : names.Nodup := by decide +kernel
  have hi : i < names.length := (List.getElem?_eq_some_iff.1 h1).1
  have : i = j := (List.getElem?_inj hi hn).1 (h1.trans h3.symm)
  subst this
  rw [h2] at h4
  injection h4

/-- C95: the curve is the Steinhart-Hart equation in the logarithm of the resistance, for temperatures in degrees Celsius, each
common coefficient being multiplied by the factor of the thermistor. -/
theorem C95_steinhart_hart (values : List ℝ) (hl : values.length = 28) (k : ℕ) (hk : 1 ≤ k ∧ k ≤ 6) (R A B C D a b c d : ℝ)
    (hA : IsValue values ['A'] A) (hB : IsValue values ['B'] B) (hC : IsValue values ['C'] C) (hD : IsValue values ['D'] D)
    (ha : IsValue values ['a', Nat.digitChar k] a) (hb : IsValue values ['b', Nat.digitChar k] b)
    (hc : IsValue values ['c', Nat.digitChar k] c) (hd : IsValue values ['d', Nat.digitChar k] d) :
    1 / (curve R (values2args values k) + 273.15) =
      A * a + B * b * Real.log R + C * c * Real.log R ^ 2 + D * d * Real.log R ^ 3 := by
  have h := (C95_arguments values hl k hk).2.2
  have e : values2args values k = [A, B, C, D, a, b, c, d] := by
    generalize values2args values k = l at h ⊢
    cases h with | cons h0 h =>
    cases h with | cons h1 h =>
    cases h with | cons h2 h =>
    cases h with | cons h3 h =>
    cases h with | cons h4 h =>
    cases h with | cons h5 h =>
    cases h with | cons h6 h =>
    cases h with | cons h7 h =>
    cases h
    rw [isValue_unique values _ _ _ h0 hA, isValue_unique values _ _ _ h1 hB, isValue_unique values _ _ _ h2 hC,
      isValue_unique values _ _ _ h3 hD, isValue_unique values _ _ _ h4 ha, isValue_unique values _ _ _ h5 hb,
      isValue_unique values _ _ _ h6 hc, isValue_unique values _ _ _ h7 hd]
  rw [e]
  simp [curve]

theorem sum_zero_iff (l : List ℝ) (h : ∀ x ∈ l, 0 ≤ x) : l.sum = 0 ↔ ∀ x ∈ l, x = 0 := by
  induction l with
  | nil => simp
  | cons a l ih =>
    have ha := h a (by simp)
    have hl : ∀ x ∈ l, 0 ≤ x := fun x hx => h x (List.mem_cons_of_mem _ hx)
    have hs := List.sum_nonneg hl
    rw [List.sum_cons, List.forall_mem_cons, ← ih hl]
    constructor
    · intro he
      constructor <;> linarith
    · rintro ⟨h1, h2⟩
      rw [h1, h2, add_zero]

/-- C95: the score is zero exactly if all curves give all temperatures of their thermistors for the resistances measured, but
for readings of weight zero. -/
theorem C95_perfect (data : ℕ → List (ℝ × ℝ × ℝ)) (values : List ℝ) (hw : ∀ k, ∀ r ∈ data k, 0 ≤ r.1) :
    score data values none = 0 ↔ ∀ k, 1 ≤ k → k ≤ 6 → ∀ w T R, (w, T, R) ∈ data k → w ≠ 0 →
      curve R (values2args values k) = T := by
  have hterm : ∀ k, ∀ x ∈ ((data k).map fun r => r.1 * (curve r.2.2 (values2args values k) - r.2.1) ^ 2), 0 ≤ x := by
    intro k x hx
    obtain ⟨r, hr, rfl⟩ := List.mem_map.1 hx
    exact mul_nonneg (hw k r hr) (sq_nonneg _)
  have hres : ∀ k, 0 ≤ residuals (data k) (values2args values k) := fun k => List.sum_nonneg (hterm k)
  unfold score
  rw [evaluate_none, mul_eq_zero, or_iff_left (by
    have := penalty_ge_one (prefixes.map (drift values))
    intro h
    rw [h] at this
    linarith), sum_zero_iff _ (by
      intro x hx
      obtain ⟨k, _, rfl⟩ := List.mem_map.1 hx
      exact hres _)]
  constructor
  · intro h k h1 h6 w T R hm hw0
    have h0 := h _ (List.mem_map.2 ⟨k - 1, List.mem_range.2 (by omega), rfl⟩)
    rw [Nat.sub_add_cancel h1] at h0
    have := (sum_zero_iff _ (hterm k)).1 h0 _ (List.mem_map.2 ⟨(w, T, R), hm, rfl⟩)
    rcases mul_eq_zero.1 this with h | h
    · exact absurd h hw0
    · exact sub_eq_zero.1 (pow_eq_zero_iff two_ne_zero |>.1 h)
  · intro h x hx
    obtain ⟨k, hk, rfl⟩ := List.mem_map.1 hx
    refine (sum_zero_iff _ (hterm (k + 1))).2 fun y hy => ?_
    obtain ⟨⟨w, T, R⟩, hr, rfl⟩ := List.mem_map.1 hy
    by_cases hw0 : w = 0
    · simp [hw0]
    · simp [h (k + 1) (by omega) (by have := List.mem_range.1 hk; omega) w T R hr hw0]

/-- C95: the bounds leave room for every parameter, and for every scaling factor on both sides of one. -/
theorem C95_bounds : bounds.length = names.length ∧ ∀ p ∈ names.zip bounds, 0 < p.2.1 ∧ p.2.1 < p.2.2 ∧
    (p.1.length = 2 → p.2.1 < 1 ∧ 1 < p.2.2) := by decide +kernel

/-- C95: the search is made within the documented bounds: those of the common coefficients by name, and for the thermistors a
factor from 0.6 to 1.4 on the first two coefficients and from 0.05 to 20 on the others. -/
theorem C95_search_space : ∀ p ∈ names.zip bounds,
    (p.1 = "A".toList → p.2 = (0.0008, 0.0014)) ∧ (p.1 = "B".toList → p.2 = (0.0002, 0.0003)) ∧
    (p.1 = "C".toList → p.2 = (0.00000001, 0.00000002)) ∧ (p.1 = "D".toList → p.2 = (0.000000007, 0.00000002)) ∧
    (p.1.length = 2 → p.1.head? = some 'a' ∨ p.1.head? = some 'b' → p.2 = (0.6, 1.4)) ∧
    (p.1.length = 2 → p.1.head? = some 'c' ∨ p.1.head? = some 'd' → p.2 = (0.05, 20)) := by decide +kernel

/-! ## C95: weights -/

example := C95_search_space ("A".toList, (0.0008, 0.0014)) (by decide +kernel)

section
variable {K : Type} [Field K]

theorem filtered_get (l : List K) : ∀ (prev : K) (n : ℕ) (h : n < l.length),
    (filtered prev l)[n]? = some ((l[n] + (if n = 0 then prev else l.getD (n - 1) 0)) / 2) := by
  induction l with
  | nil => intro prev n h; simp at h
  | cons a l ih =>
    intro prev n h
    cases n with
    | zero => simp [filtered]
    | succ n =>
      rw [filtered, List.getElem?_cons_succ, ih a n (by simpa using h)]
      cases n with
      | zero => simp
      | succ n => simp

theorem filtered_length (l : List K) : ∀ prev : K, (filtered prev l).length = l.length := by
  induction l with
  | nil => intro prev; rfl
  | cons a l ih => intro prev; rw [filtered, List.length_cons, ih, List.length_cons]

theorem diff_length (l : List K) : (diff l).length = l.length - 1 := by
  induction l with
  | nil => rfl
  | cons a l ih =>
    cases l with
    | nil => rfl
    | cons b l => rw [diff, List.length_cons, ih]; simp

theorem diff_get (l : List K) : ∀ (n : ℕ) (x y : K), l[n]? = some x → l[n + 1]? = some y → (diff l)[n]? = some (y - x) := by
  induction l with
  | nil => intro n x y h; simp at h
  | cons a l ih =>
    intro n x y h1 h2
    cases l with
    | nil => simp at h2
    | cons b l =>
      rw [diff]
      cases n with
      | zero => simp at h1 h2 ⊢; rw [h1, h2]
      | succ n =>
        rw [List.getElem?_cons_succ] at h1 h2 ⊢
        exact ih n x y h1 h2

theorem weights_length [LinearOrder K] (t T : List K) (hl : T.length = t.length) : (weights t T).length = t.length := by
  unfold weights
  simp only [List.length_zipWith, List.length_cons, List.length_map, diff_length, filtered_length, hl, Nat.min_self]
  omega

end

/-- The weight of a reading when the temperature changes at the given rate (in degrees per second). -/
noncomputable def rateWeight (rate : ℝ) : ℝ := (0.005 / (|rate| + 0.005)) ^ 3

/-- How much more a reading counts because it is cold. -/
noncomputable def coldness (T : ℝ) : ℝ := if T < -5 then 30 else if T < 4 then 10 else 1

theorem coldFactor_eq (T w : ℝ) : coldFactor T w = coldness T * w := by
  unfold coldFactor coldness
  by_cases h1 : T < -5
  · have h2 : T < 4 := by linarith
    simp only [h1, h2, if_true]; ring
  · by_cases h2 : T < 4
    · simp [h1, h2]
    · simp [h1, h2]

/-- C95: the first reading has weight zero; the weight of each later one is its coldness (1, 10 or 30) times a weight in
`(0, 1]` that is the smaller the faster the temperature changes.  The rate of change is half the difference to the
reading before the last one by the time since the last one; for the second reading, half of its temperature itself
is taken instead of the difference. -/
theorem C95_weights (t T : List ℝ) (hl : T.length = t.length) (n : ℕ) (hn : n < t.length) :
    (weights t T)[n]? = some (coldness (T[n]'(hl ▸ hn)) *
      if n = 0 then 0
      else rateWeight ((T[n]'(hl ▸ hn) - (if n = 1 then 0 else T.getD (n - 2) 0)) / 2 / (t[n] - t.getD (n - 1) 0))) := by
  unfold weights
  dsimp only
  rw [List.getElem?_zipWith, List.getElem?_eq_getElem (by omega)]
  cases n with
  | zero => simp [coldFactor_eq]
  | succ n =>
    have hf0 := filtered_get T 0 n (by omega)
    have hf1 := filtered_get T 0 (n + 1) (by omega)
    have hd := diff_get _ n _ _ hf0 hf1
    have ht := diff_get t n _ _ (List.getElem?_eq_getElem (by omega)) (List.getElem?_eq_getElem hn)
    rw [List.getElem?_cons_succ, List.getElem?_map, List.getElem?_zipWith, hd, ht]
    simp only [Option.map_some, coldFactor_eq, rateWeight]
    congr 2
    rw [if_neg (show ¬ n + 1 = 0 by omega), if_neg (show ¬ n + 1 = 0 by omega)]
    have e1 : t.getD (n + 1 - 1) 0 = t[n] := by
      rw [List.getD_eq_getElem?_getD, Nat.add_sub_cancel, List.getElem?_eq_getElem (by omega)]; rfl
    have e2 : T.getD (n + 1 - 1) 0 = T[n]'(by omega) := by
      rw [List.getD_eq_getElem?_getD, Nat.add_sub_cancel, List.getElem?_eq_getElem (by omega)]; rfl
    rw [e1, e2]
    have e3 : ((T[n + 1] + T[n]) / 2 - (T[n] + if n = 0 then 0 else T.getD (n - 1) 0) / 2) =
        (T[n + 1] - if n + 1 = 1 then 0 else T.getD (n + 1 - 2) 0) / 2 := by
      by_cases h0 : n = 0
      · simp only [h0, if_true]; ring
      · simp only [h0, if_false, Nat.add_eq_right]
        have : n + 1 - 2 = n - 1 := by omega
        rw [this]; ring
    rw [e3]
    norm_num

/-- C95: the rate weight is in `(0, 1]`, one for a constant temperature and smaller the faster it changes. -/
theorem C95_rate_weight (r r' : ℝ) : 0 < rateWeight r ∧ rateWeight r ≤ 1 ∧ rateWeight 0 = 1 ∧
    (|r| < |r'| → rateWeight r' < rateWeight r) := by
  have h : 0 ≤ |r| := abs_nonneg r
  unfold rateWeight
  refine ⟨by positivity, ?_, by norm_num, ?_⟩
  · apply pow_le_one₀ (by positivity)
    rw [div_le_one (by positivity)]
    linarith
  · intro hr
    apply pow_lt_pow_left₀ _ (by positivity) (by norm_num)
    apply div_lt_div_of_pos_left (by norm_num) (by positivity)
    linarith

/-- C94: the sums of squared residuals are not negative, as C94_thermistor_stop demands. -/
theorem C94_residuals_nonneg (t T R : List ℝ) (hl : T.length = t.length) (args : List ℝ) :
    0 ≤ residuals ((weights t T).zip (T.zip R)) args := by
  unfold residuals
  apply List.sum_nonneg
  intro x hx
  obtain ⟨⟨w, T', R'⟩, hm, rfl⟩ := List.mem_map.1 hx
  have hw : w ∈ weights t T := (List.of_mem_zip hm).1
  obtain ⟨n, hn, rfl⟩ := List.getElem_of_mem hw
  rw [weights_length t T hl] at hn
  have := C95_weights t T hl n hn
  rw [List.getElem?_eq_getElem (by rw [weights_length t T hl]; exact hn), Option.some.injEq] at this
  refine mul_nonneg ?_ (sq_nonneg _)
  dsimp only
  rw [this]
  refine mul_nonneg ?_ ?_
  · unfold coldness; split
    · norm_num
    · split <;> norm_num
  · split
    · exact le_rfl
    · exact (C95_rate_weight _ 0).1.le

/-! ## Examples -/

/-- Example values: the lower bounds of the coefficients, and scaling factors one. -/
def demoValues : List ℝ := (bounds.zip names).map fun x => if x.2.length = 1 then (x.1.1 : ℝ) else 1

/-- Non-vacuity of C95_arguments, C95_curve_decreasing and C95_penalty. -/
theorem demoValues_within : WithinBounds demoValues := by
  have h : ∀ (bs : List (ℚ × ℚ)) (ns : List (List Char)), bs.length = ns.length →
      (∀ b ∈ bs.zip ns, b.1.1 ≤ b.1.2 ∧ (b.2.length ≠ 1 → b.1.1 ≤ 1 ∧ 1 ≤ b.1.2)) →
      List.Forall₂ (fun (b : ℚ × ℚ) (v : ℝ) => (b.1 : ℝ) ≤ v ∧ v ≤ b.2) bs
        ((bs.zip ns).map fun x => if x.2.length = 1 then (x.1.1 : ℝ) else 1) := by
    intro bs
    induction bs with
    | nil => intro ns _ _; exact .nil
    | cons b bs ih =>
      intro ns hl h
      cases ns with
      | nil => cases hl
      | cons n ns =>
        refine .cons ?_ (ih ns (by simpa using hl) fun x hx => h x (List.mem_cons_of_mem _ hx))
        obtain ⟨h1, h2⟩ := h (b, n) List.mem_cons_self
        dsimp only at h1 h2 ⊢
        split
        · exact ⟨le_rfl, by exact_mod_cast h1⟩
        · rename_i hn
          exact ⟨by exact_mod_cast (h2 hn).1, by exact_mod_cast (h2 hn).2⟩
  exact h bounds names (by decide +kernel) (by decide +kernel)

/-- Non-vacuity of C94_thermistor_stop: with a score of 2 to beat, the evaluation stops after the second thermistor. -/
example : evaluate [1, 2, 3, 4, 5, 6] [0, 1] (some 2) = (3 : ℚ) ∧ evaluate [1, 2, 3, 4, 5, 6] [0, 1] none = (231 / 10 : ℚ) ∧
    evaluate [1, 2, 3, 4, 5, 6] [0, 1] (some 22) = (231 / 10 : ℚ) ∧
    evaluate [1, 2, 3, 4, 5, 6] [1, 1] (some 22) = (231 / 10 : ℚ) := by decide +kernel

/-- Weights of four readings, the last one cold. -/
example : weights [0, 1, 2, 3] [0, 0, 0, -10] = [0, 10, 10, 30 * (1 / 1001 : ℚ) ^ 3] := by decide +kernel

example := C94_thermistor_stop [1, 2, 3, 4, 5, (6 : ℚ)] [0, 1] (by decide +kernel) (some 2)

example := C94_thermistor (fun v => v.map fun x => x * x) (fun _ => [0, 1]) (fun v a ha => by
  obtain ⟨x, -, rfl⟩ := List.mem_map.1 ha
  exact mul_self_nonneg x)

example := C95_arguments demoValues (by
  have := demoValues_within.length_eq
  rw [← this]; decide +kernel) 3 (by decide)

example := C95_curve_decreasing demoValues demoValues_within 3 (by decide) 100 200 (by norm_num) (by norm_num)

/-- Any values, here four coefficients and, for each thermistor, four factors. -/
example := C95_steinhart_hart ([1, 2, 3, 4] ++ (List.replicate 6 [5, 6, 7, (8 : ℝ)]).flatten) (by simp) 3 (by decide) 100
  1 2 3 4 5 6 7 8 ⟨0, rfl, rfl⟩ ⟨1, rfl, rfl⟩ ⟨2, rfl, rfl⟩ ⟨3, rfl, rfl⟩ ⟨12, rfl, rfl⟩ ⟨13, rfl, rfl⟩ ⟨14, rfl, rfl⟩ ⟨15, rfl, rfl⟩

example := C95_perfect (fun _ => [(0, 20, 500), (1, 20, 1000)]) demoValues (by
  intro k r hr
  simp only [List.mem_cons, List.not_mem_nil, or_false] at hr
  rcases hr with rfl | rfl <;> norm_num)

example := C94_thermistor_zero [1, 2, (3 : ℚ)] [0, 1]

example := C94_thermistor_saves [1, 2] [4, 5] (3 : ℚ) [0, 1] 5 (by norm_num) (by decide +kernel) (by norm_num) (by norm_num)

example := C95_penalty (fun _ => [(1, 20, 1000)]) demoValues demoValues_within

example := C95_weights [0, 1, 2, 3] [20, 10, 0, -10] rfl 3 (by decide)

end Thermistor
end Ade
