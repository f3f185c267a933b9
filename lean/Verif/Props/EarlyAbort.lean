import Verif.Model.Challenge
import Verif.Props.Invariance

/-!
# Property C94: aborting evaluations early does not change the population
-/

set_option autoImplicit false

namespace Ade
namespace DESystem

variable {I : Type}

/-- Two outcomes of a challenge to `t` with the same effect on the population: they are the same or both lose. -/
def Alike (lt : I → I → Bool) (t : I) (o o' : Outcome I) : Prop :=
  o = o' ∨ ∃ i i', o = .evaluated i ∧ o' = .evaluated i' ∧ lt i t = false ∧ lt i' t = false

/-- Positions in the code with the same effect. -/
inductive PhaseAlike (lt : I → I → Bool) : Phase I → Phase I → Prop where
  | idle : PhaseAlike lt .idle .idle
  | waiting : PhaseAlike lt .waiting .waiting
  | evaluating (t : I) (o o' : Outcome I) (h : Alike lt t o o') : PhaseAlike lt (.evaluating t o) (.evaluating t o')
  | done : PhaseAlike lt .done .done

/-- States that differ at most in the outcomes of evaluations that lose. -/
structure SysAlike (lt : I → I → Bool) (s s' : Sys I) : Prop where
  pop : s'.pop = s.pop
  queue : s'.queue = s.queue
  phase : ∀ j, PhaseAlike lt (s.phase j) (s'.phase j)
  issued : s'.issued = s.issued
  running : s'.running = s.running

theorem alike_update {lt : I → I → Bool} {f f' : ℕ → Phase I} (h : ∀ j, PhaseAlike lt (f j) (f' j)) (j : ℕ)
    {p p' : Phase I} (hp : PhaseAlike lt p p') (i : ℕ) :
    PhaseAlike lt (Function.update f j p i) (Function.update f' j p' i) := by
  by_cases hi : i = j
  · subst hi; simpa using hp
  · rw [Function.update_of_ne hi, Function.update_of_ne hi]; exact h i

/-- Acts other than the end of a history addition. -/
def notRecorded : Act → Bool
  | .recorded _ => false
  | _ => true

theorem run_append_acts (P : Params I) (as bs : List Act) : ∀ s, run P s (as ++ bs) = (run P s as).bind fun s' => run P s' bs := by
  induction as with
  | nil => intro s; rfl
  | cons a as ih =>
    intro s
    rw [List.cons_append, run, run]
    cases step P s a with
    | none => rfl
    | some s' => exact ih s'

theorem run_one (P : Params I) (s : Sys I) (a : Act) : run P s [a] = step P s a := by
  rw [run]
  cases step P s a <;> rfl

theorem step_alike {P P' : Params I} (hlt : P'.lt = P.lt) (hx : P.xSSE = true) (hx' : P'.xSSE = false)
    (hidx : ∀ j, (P'.req j).kt = (P.req j).kt ∧ (P'.req j).idx = (P.req j).idx)
    (htrial : ∀ j t b x y, Alike P.lt t ((P.req j).trial t b x y) ((P'.req j).trial t b x y))
    {s s' s1 : Sys I} (h : SysAlike P.lt s s') (a : Act) (hs : step P s a = some s1) :
    ∃ as s1', as.filter notRecorded = [a].filter notRecorded ∧ run P' s' as = some s1' ∧ SysAlike P.lt s1 s1' := by
  have hkb : ∀ j, (P'.req j).kb = (P.req j).kb := fun j => by have := (hidx j).2; simp [Req.idx] at this; exact this.2.1
  have hk0 : ∀ j, (P'.req j).k0 = (P.req j).k0 := fun j => by have := (hidx j).2; simp [Req.idx] at this; exact this.2.2.1
  have hk1 : ∀ j, (P'.req j).k1 = (P.req j).k1 := fun j => by have := (hidx j).2; simp [Req.idx] at this; exact this.2.2.2
  cases a with
  | issue =>
    refine ⟨[.issue], ?_⟩
    simp only [run_one, step, h.running, h.issued] at hs ⊢
    split at hs
    · rename_i hr
      injection hs with hs; subst hs
      rw [if_pos hr]
      exact ⟨_, by first | rfl | trivial, rfl, h.pop, by simp only [h.queue, (hidx _).2], alike_update h.phase _ .waiting, rfl, rfl⟩
    · rename_i hr
      injection hs with hs; subst hs
      rw [if_neg hr]
      exact ⟨_, by first | rfl | trivial, rfl, h.pop, h.queue, alike_update h.phase _ .done, rfl, by simp⟩
  | grant j =>
    refine ⟨[.grant j], ?_⟩
    simp only [run_one, step] at hs ⊢
    have hp := h.phase j
    generalize s.phase j = p at hp hs
    generalize s'.phase j = p' at hp
    cases hp with
    | idle => cases hs
    | evaluating => cases hs
    | done => cases hs
    | waiting =>
      have hg : granted P' s' j = granted P s j := by simp only [granted, (hidx _).2, h.queue]
      dsimp only at hs ⊢
      rw [hg, h.running, h.queue, (hidx j).1, hkb, hk0, hk1, h.pop]
      split at hs
      · rename_i hgr
        rw [if_pos hgr]
        split at hs
        · rename_i hr
          rw [if_pos hr]
          have ht := htrial j (s.pop (P.req j).kt) (s.pop (P.req j).kb) (s.pop (P.req j).k0) (s.pop (P.req j).k1)
          generalize (P.req j).trial _ _ _ _ = o at ht hs
          generalize (P'.req j).trial _ _ _ _ = o' at ht
          rcases ht with rfl | ⟨i, i', rfl, rfl, hi, hi'⟩
          · cases o with
            | failedConstraints =>
              injection hs with hs; subst hs
              exact ⟨_, by first | rfl | trivial, rfl, rfl, rfl, alike_update h.phase _ .done, h.issued, rfl⟩
            | fatal =>
              injection hs with hs; subst hs
              exact ⟨_, by first | rfl | trivial, rfl, rfl, rfl, alike_update h.phase _ (.evaluating _ _ _ (.inl rfl)), h.issued, rfl⟩
            | evaluated i =>
              injection hs with hs; subst hs
              exact ⟨_, by first | rfl | trivial, rfl, rfl, rfl, alike_update h.phase _ (.evaluating _ _ _ (.inl rfl)), h.issued, rfl⟩
          · injection hs with hs; subst hs
            exact ⟨_, by first | rfl | trivial, rfl, rfl, rfl,
              alike_update h.phase _ (.evaluating _ _ _ (.inr ⟨i, i', rfl, rfl, hi, hi'⟩)), h.issued, rfl⟩
        · rename_i hr
          rw [if_neg hr]
          injection hs with hs; subst hs
          exact ⟨_, by first | rfl | trivial, rfl, rfl, rfl, alike_update h.phase _ .done, h.issued, rfl⟩
      · cases hs
  | finish j =>
    have hp := h.phase j
    have hsp : step P s (.finish j) = some s1 := hs
    simp only [step] at hs
    cases hps : s.phase j with
    | idle => rw [hps] at hs; cases hs
    | waiting => rw [hps] at hs; cases hs
    | recording => rw [hps] at hs; cases hs
    | done => rw [hps] at hs; cases hs
    | evaluating t o =>
      rw [hps] at hp hs
      dsimp only at hs
      generalize hps' : s'.phase j = p' at hp
      cases hp with
      | evaluating t o o' ho =>
        -- the two outcomes behave alike
        have lose : ∀ i i', o = .evaluated i → o' = .evaluated i' → P.lt i t = false → P.lt i' t = false →
            s.running = true → ∃ as s1', as.filter notRecorded = [Act.finish j].filter notRecorded ∧
              run P' s' as = some s1' ∧ SysAlike P.lt s1 s1' := by
          rintro i i' rfl rfl hi hi' hr
          rw [hr] at hs
          simp only [hi, hx, Bool.false_eq_true, if_false, Bool.not_true] at hs
          injection hs with hs; subst hs
          refine ⟨[.finish j, .recorded j], ?_⟩
          have h1 : step P' s' (.finish j) = some { s' with phase := Function.update s'.phase j .recording } := by
            simp only [step, hps', h.running, hr, hlt, hi', hx', Bool.false_eq_true, if_false, Bool.not_false, if_true]
          rw [run, h1]
          dsimp only
          rw [run_one]
          simp only [step, Function.update_self, Function.update_idem]
          exact ⟨_, rfl, rfl, h.pop, by simp only [h.queue, (hidx j).1], alike_update h.phase _ .done, h.issued, by
            simp only [h.running, hr]⟩
        cases hr : s.running with
        | false =>
          rw [hr] at hs
          refine ⟨[.finish j], ?_⟩
          rw [run_one]
          simp only [step, hps', h.running, hr]
          have hs1 : s1 = { s with
              running := false, queue := release s.queue (P.req j).kt, phase := Function.update s.phase j .done } := by
            cases o <;> (injection hs with hs; exact hs.symm)
          subst hs1
          cases o' <;> exact ⟨_, by first | rfl | trivial, rfl, h.pop, by simp only [h.queue, (hidx j).1], alike_update h.phase _ .done,
            h.issued, rfl⟩
        | true =>
          rcases ho with rfl | ⟨i, i', rfl, rfl, hi, hi'⟩
          · cases o with
            | failedConstraints =>
              rw [hr] at hs
              injection hs with hs; subst hs
              refine ⟨[.finish j], ?_⟩
              rw [run_one]
              simp only [step, hps']
              exact ⟨_, by first | rfl | trivial, rfl, h.pop, by simp only [h.queue, (hidx j).1], alike_update h.phase _ .done, h.issued, rfl⟩
            | fatal =>
              rw [hr] at hs
              injection hs with hs; subst hs
              refine ⟨[.finish j], ?_⟩
              rw [run_one]
              simp only [step, hps']
              exact ⟨_, by first | rfl | trivial, rfl, h.pop, by simp only [h.queue, (hidx j).1], alike_update h.phase _ .done, h.issued, rfl⟩
            | evaluated i =>
              by_cases hi : P.lt i t = true
              · rw [hr] at hs
                simp only [hi, if_true] at hs
                injection hs with hs; subst hs
                refine ⟨[.finish j], ?_⟩
                rw [run_one]
                simp only [step, hps', h.running, hr, hlt, hi, if_true]
                exact ⟨_, by first | rfl | trivial, rfl, by simp only [h.pop, (hidx j).1], by simp only [h.queue, (hidx j).1],
                  alike_update h.phase _ .done, h.issued, rfl⟩
              · exact lose i i rfl rfl (by simpa using hi) (by simpa using hi) hr
          · exact lose i i' rfl rfl hi hi' hr
  | recorded j =>
    have hp := h.phase j
    simp only [step] at hs
    cases hps : s.phase j with
    | recording => rw [hps] at hp; cases hp
    | idle => rw [hps] at hs; cases hs
    | waiting => rw [hps] at hs; cases hs
    | evaluating => rw [hps] at hs; cases hs
    | done => rw [hps] at hs; cases hs
  | shutdown =>
    refine ⟨[.shutdown], ?_⟩
    rw [run_one]
    simp only [step] at hs ⊢
    injection hs with hs; subst hs
    exact ⟨_, by first | rfl | trivial, rfl, h.pop, h.queue, h.phase, h.issued, rfl⟩

theorem run_alike {P P' : Params I} (hlt : P'.lt = P.lt) (hx : P.xSSE = true) (hx' : P'.xSSE = false)
    (hidx : ∀ j, (P'.req j).kt = (P.req j).kt ∧ (P'.req j).idx = (P.req j).idx)
    (htrial : ∀ j t b x y, Alike P.lt t ((P.req j).trial t b x y) ((P'.req j).trial t b x y)) (acts : List Act) :
    ∀ {s s' s1 : Sys I}, SysAlike P.lt s s' → run P s acts = some s1 →
      ∃ as s1', as.filter notRecorded = acts.filter notRecorded ∧ run P' s' as = some s1' ∧ SysAlike P.lt s1 s1' := by
  induction acts with
  | nil => intro s s' s1 h hs; injection hs with hs; subst hs; exact ⟨[], s', rfl, rfl, h⟩
  | cons a acts ih =>
    intro s s' s1 h hs
    rw [run] at hs
    cases hst : step P s a with
    | none => rw [hst] at hs; cases hs
    | some s2 =>
      rw [hst] at hs
      obtain ⟨as, s2', h1, h2, h3⟩ := step_alike hlt hx hx' hidx htrial h a hst
      obtain ⟨bs, s1', h4, h5, h6⟩ := ih h3 hs
      refine ⟨as ++ bs, s1', ?_, ?_, h6⟩
      · rw [List.filter_append, h1, h4, ← List.filter_append]; rfl
      · rw [run_append_acts, h2]; exact h5

end DESystem

namespace Challenge

open DESystem

/-- An evaluation function that may stop early when told the score `x` to beat: what it returns then is the complete
score, or else neither the complete score nor what it returns is better than `x`. -/
def SoundAbort (eval : ℕ → List ℚ → Option PyFloat → Individual.EvalResult) : Prop :=
  ∀ n v x, eval n v (some x) = eval n v none ∨ ∃ y y' : PyFloat, eval n v none = .done (some y) ∧
    eval n v (some x) = .done (some y') ∧ PyFloat.le .zero y = true ∧ PyFloat.le .zero y' = true ∧
    y.lt x = false ∧ y'.lt x = false

/-- A challenge with and without early aborting has outcomes with the same effect. -/
theorem soundAbort_trial (c : Config) (idx : ℕ → ℕ × ℕ × ℕ × ℕ) (draws : ℕ → Draws)
    (eval : ℕ → List ℚ → Option PyFloat → Individual.EvalResult) (heval : SoundAbort eval) (j : ℕ)
    (t b x y : Individual) :
    Alike Individual.lt t (((params { c with xSSE := true } idx draws eval).req j).trial t b x y)
      (((params { c with xSSE := false } idx draws eval).req j).trial t b x y) := by
  have hfin : ∀ (v : List ℚ) (y : PyFloat), PyFloat.le .zero y = true →
      (((Individual.spawn v).finishEval 0 (.done (some y))).1.toBool = true ∧
        ((Individual.spawn v).finishEval 0 (.done (some y))).1.toFloat = y) := by
    intro v y hy
    have hn : y.lt .zero = false := not_lt_of_le y hy
    have hst : ((Individual.spawn v).finishEval 0 (.done (some y))).1.stored = some y := rfl
    have hS : ((Individual.spawn v).finishEval 0 (.done (some y))).1.SSE = y := by
      unfold Individual.SSE
      rw [hst]
      dsimp only
      rw [if_neg (by simp [hn])]
    refine ⟨?_, ?_⟩
    · unfold Individual.toBool
      rw [hst]
      dsimp only
      split
      · rfl
      · exact hy
    · rw [toFloat_eq_SSE, hS]
  show Alike Individual.lt t (trial { c with xSSE := true } (draws j) (eval j) t b x y)
    (trial { c with xSSE := false } (draws j) (eval j) t b x y)
  have hch : challenger { c with xSSE := true } (draws j) t b x y =
    challenger { c with xSSE := false } (draws j) t b x y := rfl
  unfold trial
  rw [hch]
  generalize challenger { c with xSSE := false } (draws j) t b x y = v
  simp only [if_true, Bool.false_eq_true, if_false]
  split
  · rcases heval j v t.SSE with h | ⟨q, q', h1, h2, h3, h4, h5, h6⟩
    · rw [h]; exact .inl rfl
    · rw [h1, h2]
      obtain ⟨a1, a2⟩ := hfin v q h3
      obtain ⟨b1, b2⟩ := hfin v q' h4
      rw [a1, b1]
      refine .inr ⟨_, _, rfl, rfl, ?_, ?_⟩
      · unfold Individual.lt; rw [b2, toFloat_eq_SSE]; exact h6
      · unfold Individual.lt; rw [a2, toFloat_eq_SSE]; exact h5
  · exact .inl rfl

/-- C94: if the evaluation function stops early only when the challenger loses anyway, turning `xSSE` on changes nothing
about the population: every execution with it corresponds to one without it, in which also the history additions
of losing challengers occur, with the same population. -/
theorem C94_early_abort (c : Config) (idx : ℕ → ℕ × ℕ × ℕ × ℕ) (draws : ℕ → Draws)
    (eval : ℕ → List ℚ → Option PyFloat → Individual.EvalResult) (heval : SoundAbort eval) (pop₀ : ℕ → Individual)
    (acts : List Act) (s : Sys Individual)
    (hs : run (params { c with xSSE := true } idx draws eval) (init pop₀) acts = some s) :
    ∃ acts' s', acts'.filter notRecorded = acts.filter notRecorded ∧
      run (params { c with xSSE := false } idx draws eval) (init pop₀) acts' = some s' ∧
      s'.pop = s.pop ∧ s'.running = s.running := by
  obtain ⟨as, s', h1, h2, h3⟩ := run_alike (P := params { c with xSSE := true } idx draws eval)
    (P' := params { c with xSSE := false } idx draws eval) rfl rfl rfl (fun _ => ⟨rfl, rfl⟩)
    (soundAbort_trial c idx draws eval heval) acts
    (s := init pop₀) (s' := init pop₀) ⟨rfl, rfl, fun _ => .idle, rfl, rfl⟩ hs
  exact ⟨as, s', h1, h2, h3.pop, h3.running⟩

/-- An evaluation in two stages that stops after the first one (with score 6) if that is already worse than the score
to beat; the complete score is 9. -/
def twoStages : ℕ → List ℚ → Option PyFloat → Individual.EvalResult :=
  fun _ _ x => if (x.map fun y => y.lt (.fin 6)) = some true then .done (some (.fin 6)) else .done (some (.fin 9))

theorem twoStages_sound : SoundAbort twoStages := by
  intro n v x
  unfold twoStages
  by_cases hx : x.lt (.fin 6) = true
  · right
    refine ⟨.fin 9, .fin 6, rfl, by simp [hx], by decide +kernel, by decide +kernel, ?_, ?_⟩
    · cases x <;> simp_all [PyFloat.lt]; linarith
    · cases x <;> simp_all [PyFloat.lt]; linarith
  · left; simp [hx]

/-- Non-vacuity of C94_early_abort: a run with a challenge to member 0 (score 5) whose evaluation stops early. -/
example : SoundAbort twoStages ∧ twoStages 0 [] (some (.fin 5)) ≠ twoStages 0 [] none ∧
    (run (params { cfg with xSSE := true } (fun _ => (0, 1, 2, 3)) (fun _ => ⟨1 / 2, 0, fun _ => 3 / 4⟩) twoStages)
      (init demoPop) [.issue, .grant 0, .finish 0]).map (fun s => s.pop 0) = some (ind 5 [3, 1 / 2]) ∧
    (run (params { cfg with xSSE := false } (fun _ => (0, 1, 2, 3)) (fun _ => ⟨1 / 2, 0, fun _ => 3 / 4⟩) twoStages)
      (init demoPop) [.issue, .grant 0, .finish 0, .recorded 0]).map (fun s => s.pop 0) = some (ind 5 [3, 1 / 2]) :=
  ⟨twoStages_sound, by decide +kernel, by decide +kernel, by decide +kernel⟩

end Challenge
end Ade
