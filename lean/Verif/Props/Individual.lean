import Verif.Lemmas.PyFloat

/-!
# Properties C01, C02 (and the part of C03 about equality): individuals and their scores
-/

set_option autoImplicit false

namespace Ade

/-! ## C01 -/

/-- Specification: what a score read back must be, given what was stored. -/
inductive ReadsAs : Option PyFloat → PyFloat → Prop where
  | unset : ReadsAs none .pinf
  | negative (x : PyFloat) : x.lt (.fin 0) = true → ReadsAs (some x) .pinf
  | usable (x : PyFloat) : x.lt (.fin 0) = false → ReadsAs (some x) x

/-- C01: the score read back, and the float conversion, follow the specification. -/
theorem C01_score_reads (i : Individual) (r : PyFloat) :
    (i.SSE = r ↔ ReadsAs i.stored r) ∧ i.toFloat = i.SSE := by
  constructor
  · constructor
    · intro h
      unfold Individual.SSE at h
      cases hs : i.stored with
      | none => simp only [hs] at h; subst h; exact .unset
      | some x =>
        simp only [hs] at h
        by_cases hx : x.lt .zero = true
        · simp only [hx, if_true] at h; subst h; exact .negative _ hx
        · simp only [hx] at h; subst h; exact .usable _ (Bool.eq_false_iff.2 hx)
    · intro h
      unfold Individual.SSE
      generalize i.stored = s at h
      cases h with
      | unset => rfl
      | negative x hx => simp [PyFloat.zero, hx]
      | usable x hx => simp [PyFloat.zero, hx]
  · unfold Individual.toFloat Individual.SSE
    cases hs : i.stored with
    | none => simp
    | some x =>
      by_cases hx : x.lt .zero = true
      · simp [hx]
      · simp [hx]

/-- C01: the score read back is never negative. -/
theorem C01_score_nonneg (i : Individual) :
    i.SSE = .nan ∨ i.SSE = .pinf ∨ ∃ q : ℚ, 0 ≤ q ∧ i.SSE = .fin q := by
  have h := (C01_score_reads i i.SSE).1.1 rfl
  generalize i.SSE = r at h ⊢
  generalize i.stored = s at h
  cases h with
  | unset => simp
  | negative => simp
  | usable x hx => exact PyFloat.not_lt_zero_cases hx

/-- C01: an individual is false exactly when a negative score was stored. -/
theorem C01_bool_iff (i : Individual) :
    i.toBool = false ↔ ∃ x, i.stored = some x ∧ x.lt (.fin 0) = true := by
  unfold Individual.toBool
  cases hs : i.stored with
  | none => simp
  | some x => cases x <;> simp [PyFloat.isNaN, PyFloat.le, PyFloat.lt, PyFloat.eq, PyFloat.zero]
              rename_i q
              constructor
              · intro ⟨h1, h2⟩; exact lt_of_le_of_ne h1 (fun h => h2 h.symm)
              · intro h; exact ⟨le_of_lt h, fun h' => absurd h (by rw [← h']; exact lt_irrefl _)⟩

/-- C01: in particular never-evaluated, infinite and NaN individuals are true. -/
theorem C01_bool_special (v : List ℚ) :
    (Individual.mk none v).toBool = true ∧ (Individual.mk (some .pinf) v).toBool = true ∧
    (Individual.mk (some .nan) v).toBool = true := by
  simp [Individual.toBool, PyFloat.isNaN, PyFloat.le, PyFloat.lt, PyFloat.zero]

/-- C01: after an evaluation that failed, the individual is false, infinitely bad, and not counted;
after one that returned a usable score it is true, has that score, and is counted. -/
theorem C01_evaluate (i : Individual) (n : ℕ) :
    ((i.finishEval n .failed).1.toBool = false ∧ (i.finishEval n .failed).1.SSE = .pinf ∧
      (i.finishEval n .failed).2 = n) ∧
    ∀ x : PyFloat, x.lt (.fin 0) = false →
      (i.finishEval n (.done (some x))).1.toBool = true ∧
      (i.finishEval n (.done (some x))).1.SSE = x ∧
      (i.finishEval n (.done (some x))).1.values = i.values ∧
      (i.finishEval n (.done (some x))).2 = n + 1 := by
  refine ⟨⟨?_, ?_, rfl⟩, ?_⟩
  · rw [C01_bool_iff]; exact ⟨.fin (-1), rfl, by simp [PyFloat.lt]⟩
  · rw [(C01_score_reads _ _).1]; exact .negative _ (by simp [PyFloat.lt])
  · intro x hx
    refine ⟨?_, ?_, rfl, rfl⟩
    · rw [← Bool.not_eq_false, C01_bool_iff]
      rintro ⟨y, hy, hlt⟩
      simp only [Individual.finishEval, Individual.setSSE, Option.some.injEq] at hy
      subst hy; simp [hx] at hlt
    · rw [(C01_score_reads _ _).1]; exact .usable _ hx

/-- C01, disagreement with the documentation of `copy` ("a complete copy of me"): the copy of an
individual with a fatal evaluation error is no longer false. -/
theorem C01_copy_forgets_failure (i : Individual) (h : i.toBool = false) :
    i.copy.toBool = true ∧ i.copy.SSE = i.SSE ∧ i.copy.values = i.values := by
  have hr : i.SSE = .pinf := by
    obtain ⟨x, hx, hlt⟩ := (C01_bool_iff i).1 h
    rw [(C01_score_reads _ _).1, hx]; exact .negative _ hlt
  have hc : i.copy = ⟨some .pinf, i.values⟩ := by
    simp [Individual.copy, Individual.setSSE, Individual.spawn, hr]
  rw [hc, hr]
  simp [Individual.toBool, PyFloat.isNaN, PyFloat.le, PyFloat.lt, PyFloat.zero, Individual.SSE]

/-- C01: a copy always ranks the same. -/
theorem C01_copy_same_score (i : Individual) : i.copy.SSE = i.SSE ∧ i.copy.values = i.values := by
  refine ⟨?_, rfl⟩
  rw [(C01_score_reads _ _).1]
  rcases C01_score_nonneg i with h | h | ⟨q, hq, h⟩ <;>
    (simp only [Individual.copy, Individual.setSSE, h]; apply ReadsAs.usable; simp_all [PyFloat.lt])

example : (Individual.mk (some (.fin (-3))) [1, 2]).toBool = false ∧
    (Individual.mk (some (.fin (-3))) [1, 2]).SSE = .pinf := by decide

/-! ## C03, values -/

/-- C03: two individuals compare equal exactly when their scores are the same number (not NaN) and so are
their values. -/
theorem C03_eq_iff (i j : Individual) :
    i.eq j = true ↔ i.SSE = j.SSE ∧ i.SSE ≠ .nan ∧ i.values = j.values := by
  unfold Individual.eq Individual.equals
  rw [Bool.and_eq_true, beq_iff_eq]
  generalize i.SSE = a
  generalize j.SSE = b
  cases a <;> cases b <;> simp [PyFloat.eq]

/-- C03: in particular, never with an individual that ranks differently. -/
theorem C03_eq_ranks_same (i j k : Individual) (h : i.eq j = true) :
    i.lt j = false ∧ j.lt i = false ∧ (i.lt k = j.lt k) ∧ (k.lt i = k.lt j) := by
  obtain ⟨h1, -, -⟩ := (C03_eq_iff i j).mp h
  unfold Individual.lt
  rw [(C01_score_reads i i.SSE).2, (C01_score_reads j j.SSE).2, h1]
  exact ⟨PyFloat.lt_irrefl _, PyFloat.lt_irrefl _, rfl, rfl⟩

example : (Individual.mk (some (.fin (-3))) [1, 2]).eq (Individual.mk none [1, 2]) = true := by decide

/-! ## C02 -/

/-- C02: `<` between individuals is the strict order of the extended rationals on their scores. -/
theorem C02_lt_is_score_order (i j : Individual) :
    (i.lt j = true ↔ ∃ a b, i.SSE.toExt = some a ∧ j.SSE.toExt = some b ∧ a < b) ∧
    (i.gt j = true ↔ j.lt i = true) := by
  constructor
  · unfold Individual.lt
    rw [(C01_score_reads i i.SSE).2, (C01_score_reads j j.SSE).2]
    exact PyFloat.lt_iff_toExt _ _
  · rfl

/-- C02: comparing with a number agrees with comparing the score with that number. -/
theorem C02_ltNum (i : Individual) (x : PyFloat) :
    i.ltNum x = true ↔ ∃ a b, i.SSE.toExt = some a ∧ x.toExt = some b ∧ a < b := by
  unfold Individual.ltNum
  rw [(C01_score_reads i i.SSE).2]
  exact PyFloat.lt_iff_toExt _ _

/-- C02: strict partial order laws, for all individuals including NaN scores. -/
theorem C02_strict_order :
    (∀ i : Individual, i.lt i = false) ∧
    (∀ i j k : Individual, i.lt j = true → j.lt k = true → i.lt k = true) ∧
    (∀ i j : Individual, i.lt j = true → j.lt i = false) :=
  ⟨fun _ => PyFloat.lt_irrefl _, fun _ _ _ => PyFloat.lt_trans, fun _ _ => PyFloat.lt_asymm⟩

/-- C02: exactly one way round when the scores differ and neither is NaN. -/
theorem C02_total (i j : Individual) (hi : i.SSE ≠ .nan) (hj : j.SSE ≠ .nan) (hne : i.SSE ≠ j.SSE) :
    (i.lt j = true ∧ j.lt i = false) ∨ (j.lt i = true ∧ i.lt j = false) := by
  unfold Individual.lt
  rw [(C01_score_reads i i.SSE).2, (C01_score_reads j j.SSE).2]
  rcases PyFloat.lt_trichotomy hi hj with h | h | h
  · exact .inl ⟨h, PyFloat.lt_asymm h⟩
  · exact absurd h hne
  · exact .inr ⟨h, PyFloat.lt_asymm h⟩

/-- C02: a failed individual never ranks better than any other. -/
theorem C02_failed_never_better (i j : Individual) (h : i.toBool = false) : i.lt j = false := by
  obtain ⟨x, hx, hlt⟩ := (C01_bool_iff i).1 h
  have hr : i.SSE = .pinf := by rw [(C01_score_reads _ _).1, hx]; exact .negative _ hlt
  unfold Individual.lt
  rw [(C01_score_reads i i.SSE).2, hr]
  cases j.toFloat <;> rfl

/-- C02: and a blacklisted individual neither. -/
theorem C02_blacklisted_never_better (i j : Individual) : i.blacklist.lt j = false := by
  have : i.blacklist.toFloat = .pinf := by
    simp [Individual.blacklist, Individual.setSSE, Individual.toFloat, Individual.SSE, PyFloat.lt,
      PyFloat.zero]
  unfold Individual.lt
  rw [this]; cases j.toFloat <;> rfl

example : (Individual.mk (some (.fin 3)) [1]).lt (Individual.mk (some (.fin (-2))) [2]) = true := by
  decide

example : (Individual.mk (some (.fin 3)) [1]).SSE ≠ .nan ∧ (Individual.mk none [1]).SSE ≠ .nan ∧
    (Individual.mk (some (.fin 3)) [1]).SSE ≠ (Individual.mk none [1]).SSE := by decide

example := C01_copy_forgets_failure ⟨some (.fin (-3)), [1, 2]⟩ (by decide)

example := C02_total ⟨some (.fin 3), [1]⟩ ⟨none, [1]⟩ (by decide) (by decide) (by decide)

example := C02_failed_never_better ⟨some (.fin (-3)), [1, 2]⟩ ⟨some (.fin 3), [1]⟩ (by decide)

end Ade
