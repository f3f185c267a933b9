import Verif.Props.Challenge

/-!
# Property C67: how a challenger is evaluated
-/

set_option autoImplicit false

namespace Ade
namespace Challenge
open ParamManager DESystem

/-- Specification: every constraint accepts the named values. -/
def Accepted (c : Config) (v : List ℚ) : Prop :=
  ∃ d, IsParamsOf c.names v d ∧ ∀ f ∈ c.constraints, f d = true

/-- Specification: a fatal evaluation is a failure or a score below zero. -/
def Fatal : Individual.EvalResult → Prop
  | .failed => True
  | .done none => False
  | .done (some x) => x.lt (.fin 0) = true

/-- What the evaluator is told about the target: its score if, and only if, `xSSE` is set. -/
def told (c : Config) (t : Individual) : Option PyFloat :=
  match c.xSSE with
  | true => some t.SSE
  | false => none

theorem finishEval_toBool (v : List ℚ) (r : Individual.EvalResult) :
    (((Individual.spawn v).finishEval 0 r).1.toBool = true) ↔ ¬ Fatal r := by
  cases r with
  | failed =>
    simp [Fatal, Individual.finishEval, Individual.toBool, Individual.setSSE, PyFloat.isNaN,
      PyFloat.le, PyFloat.lt, PyFloat.eq, PyFloat.zero]
  | done x =>
    rcases x with _ | x
    · simp [Fatal, Individual.finishEval, Individual.toBool, Individual.setSSE]
    · cases x <;> simp [Fatal, Individual.finishEval, Individual.toBool, Individual.setSSE,
        PyFloat.isNaN, PyFloat.le, PyFloat.lt, PyFloat.eq, PyFloat.zero, le_iff_lt_or_eq]

theorem trial_eq (c : Config) (d : Draws) (eval : List ℚ → Option PyFloat → Individual.EvalResult)
    (t b i0 i1 : Individual) :
    trial c d eval t b i0 i1 =
      (if passesConstraints c.names c.constraints (challenger c d t b i0 i1) then
        (if ((Individual.spawn (challenger c d t b i0 i1)).finishEval 0
            (eval (challenger c d t b i0 i1) (told c t))).1.toBool then
          .evaluated ((Individual.spawn (challenger c d t b i0 i1)).finishEval 0
            (eval (challenger c d t b i0 i1) (told c t))).1
        else .fatal)
      else .failedConstraints) := by
  have : told c t = (if c.xSSE then some t.SSE else none) := by
    unfold told; cases c.xSSE <;> rfl
  rw [this]; rfl

variable (c : Config) (hnd : c.names.Nodup) (hnl : c.names.length = c.bounds.length) (d : Draws)
  (eval : List ℚ → Option PyFloat → Individual.EvalResult) (t b i0 i1 : Individual)
  (hb : b.values.length = c.bounds.length) (h0 : i0.values.length = c.bounds.length)
  (h1 : i1.values.length = c.bounds.length)

include hnd hnl hb h0 h1

theorem passes_iff : passesConstraints c.names c.constraints (challenger c d t b i0 i1) = true ↔
    Accepted c (challenger c d t b i0 i1) :=
  C07_passes_iff c.names hnd c.constraints _ (by rw [challenger_length c d t b i0 i1 hb h0 h1, hnl])

/-- C67: a challenge ends with an evaluated challenger exactly if all constraints accept the
challenger's values and the evaluation is not fatal; the individual then has those values and the
score the evaluator gave for them, and the evaluator was told the target's score exactly with
`xSSE`. -/
theorem C67_evaluated_iff (i : Individual) :
    trial c d eval t b i0 i1 = .evaluated i ↔
      Accepted c (challenger c d t b i0 i1) ∧
      ∃ x, eval (challenger c d t b i0 i1) (told c t) = .done x ∧ ¬ Fatal (.done x) ∧
        i = ⟨x, challenger c d t b i0 i1⟩ := by
  have hp := passes_iff c hnd hnl d t b i0 i1 hb h0 h1
  have hf := finishEval_toBool (challenger c d t b i0 i1) (eval (challenger c d t b i0 i1) (told c t))
  rw [trial_eq]
  generalize challenger c d t b i0 i1 = v at *
  generalize eval v (told c t) = r at *
  rw [← hp]
  by_cases hc : passesConstraints c.names c.constraints v = true
  · simp only [hc, if_true, true_and]
    by_cases hr : ((Individual.spawn v).finishEval 0 r).1.toBool = true
    · simp only [hr, if_true]
      have hnf := hf.1 hr
      cases r with
      | failed => exact absurd trivial hnf
      | done x =>
        constructor
        · intro h; injection h with h
          exact ⟨x, rfl, hnf, h.symm⟩
        · rintro ⟨y, hy, -, rfl⟩
          cases hy; rfl
    · simp only [hr, Bool.false_eq_true, if_false, reduceCtorEq, false_iff]
      rintro ⟨x, rfl, hx, -⟩
      exact hr (hf.2 hx)
  · simp [hc]

/-- C67: a challenge is fatal exactly if the constraints accept the challenger's values and its
evaluation fails or gives a score below zero. -/
theorem C67_fatal_iff :
    trial c d eval t b i0 i1 = .fatal ↔
      Accepted c (challenger c d t b i0 i1) ∧ Fatal (eval (challenger c d t b i0 i1) (told c t)) := by
  have hp := passes_iff c hnd hnl d t b i0 i1 hb h0 h1
  have hf := finishEval_toBool (challenger c d t b i0 i1) (eval (challenger c d t b i0 i1) (told c t))
  rw [trial_eq]
  generalize challenger c d t b i0 i1 = v at *
  generalize eval v (told c t) = r at *
  rw [← hp]
  by_cases hc : passesConstraints c.names c.constraints v = true
  · simp only [hc, if_true, true_and]
    by_cases hr : ((Individual.spawn v).finishEval 0 r).1.toBool = true
    · simp only [hr, if_true, reduceCtorEq, false_iff]
      exact hf.1 hr
    · simp only [hr, Bool.false_eq_true, if_false, true_iff]
      by_contra h
      exact hr (hf.2 h)
  · simp [hc]

/-- C67: a challenger that some constraint rejects is not evaluated at all: the outcome is the same
whatever the evaluator. -/
theorem C67_rejected_iff :
    trial c d eval t b i0 i1 = .failedConstraints ↔ ¬ Accepted c (challenger c d t b i0 i1) := by
  have hp := passes_iff c hnd hnl d t b i0 i1 hb h0 h1
  rw [trial_eq, ← hp]
  by_cases hc : passesConstraints c.names c.constraints (challenger c d t b i0 i1) = true
  · simp only [hc, if_true, not_true_eq_false, iff_false]
    split_ifs <;> simp
  · simp [hc]

omit hnd hnl hb h0 h1

/-- Non-vacuity: a challenger accepted, one whose evaluation is fatal, one rejected, and the score told
with `xSSE`. -/
example :
    (match trial cfg ⟨1 / 2, 0, fun _ => 3 / 4⟩ (fun _ _ => .done (some (.fin 1)))
        (ind 5 [3, 1 / 2]) (ind 4 [2, 0]) (ind 7 [3, 1]) (ind 8 [2, 0]) with
      | .evaluated i => decide (i = ind 1 [5 / 2, 1 / 2])
      | _ => false) = true ∧
    (match trial cfg ⟨1 / 2, 0, fun _ => 3 / 4⟩ (fun _ _ => .failed)
        (ind 5 [3, 1 / 2]) (ind 4 [2, 0]) (ind 7 [3, 1]) (ind 8 [2, 0]) with
      | .fatal => true
      | _ => false) = true ∧
    (match trial cfg ⟨1 / 2, 0, fun _ => 3 / 4⟩ (fun _ _ => .failed)
        (ind 5 [3, 1 / 2]) (ind 4 [9, 0]) (ind 7 [6, 1]) (ind 8 [2, 0]) with
      | .failedConstraints => true
      | _ => false) = true ∧
    told { cfg with xSSE := true } (ind 5 [3, 1 / 2]) = some (.fin 5) ∧
    cfg.names.Nodup ∧ cfg.names.length = cfg.bounds.length := by decide +kernel

example := C67_evaluated_iff cfg (by decide) (by decide) ⟨1 / 2, 0, fun _ => 3 / 4⟩ (fun _ _ => .done (some (.fin 1)))
  (ind 5 [3, 1 / 2]) (ind 4 [2, 0]) (ind 7 [3, 1]) (ind 8 [2, 0]) (by decide) (by decide) (by decide) (ind 1 [5 / 2, 1 / 2])

example := C67_fatal_iff cfg (by decide) (by decide) ⟨1 / 2, 0, fun _ => 3 / 4⟩ (fun _ _ => .failed)
  (ind 5 [3, 1 / 2]) (ind 4 [2, 0]) (ind 7 [3, 1]) (ind 8 [2, 0]) (by decide) (by decide) (by decide)

example := C67_rejected_iff cfg (by decide) (by decide) ⟨1 / 2, 0, fun _ => 3 / 4⟩ (fun _ _ => .failed)
  (ind 5 [3, 1 / 2]) (ind 4 [9, 0]) (ind 7 [6, 1]) (ind 8 [2, 0]) (by decide) (by decide) (by decide)

end Challenge
end Ade
