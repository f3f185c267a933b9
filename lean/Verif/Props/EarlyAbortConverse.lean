import Verif.Props.EarlyAbort

/-!
# Property C94, the other direction: every population reached without xSSE is reached with it
-/

set_option autoImplicit false

namespace Ade
namespace DESystem

variable {I : Type}

/-- Positions in the code of an execution with xSSE (left) and of one without it (right): a losing challenge that waits
for the history in the latter is still being evaluated in the former. -/
inductive PhaseLate (lt : I → I → Bool) : Phase I → Phase I → Prop where
  | idle : PhaseLate lt .idle .idle
  | waiting : PhaseLate lt .waiting .waiting
  | evaluating (t : I) (o o' : Outcome I) (h : Alike lt t o o') : PhaseLate lt (.evaluating t o) (.evaluating t o')
  | recording (t i : I) (h : lt i t = false) : PhaseLate lt (.evaluating t (.evaluated i)) .recording
  | done : PhaseLate lt .done .done

/-- States that differ only in that. -/
structure SysLate (lt : I → I → Bool) (s s' : Sys I) : Prop where
  pop : s.pop = s'.pop
  queue : s.queue = s'.queue
  phase : ∀ j, PhaseLate lt (s.phase j) (s'.phase j)
  issued : s.issued = s'.issued
  running : s.running = s'.running

theorem late_update {lt : I → I → Bool} {f f' : ℕ → Phase I} (h : ∀ j, PhaseLate lt (f j) (f' j)) (j : ℕ)
    {p p' : Phase I} (hp : PhaseLate lt p p') (i : ℕ) :
    PhaseLate lt (Function.update f j p i) (Function.update f' j p' i) := by
  by_cases hi : i = j
  · subst hi; simpa using hp
  · rw [Function.update_of_ne hi, Function.update_of_ne hi]; exact h i

/-- Acts by which challenges begin and runs end: all but the ends of evaluations and history additions. -/
def notEnding : Act → Bool
  | .recorded _ => false
  | .finish _ => false
  | _ => true

theorem step_late {P P' : Params I} (hlt : P'.lt = P.lt) (hx : P.xSSE = true) (hx' : P'.xSSE = false)
    (hidx : ∀ j, (P'.req j).kt = (P.req j).kt ∧ (P'.req j).idx = (P.req j).idx)
    (htrial : ∀ j t b x y, Alike P.lt t ((P.req j).trial t b x y) ((P'.req j).trial t b x y))
    {s s' s1' : Sys I} (h : SysLate P.lt s s') (a : Act) (hs : step P' s' a = some s1') :
    ∃ as s1, as.filter notEnding = [a].filter notEnding ∧ run P s as = some s1 ∧ SysLate P.lt s1 s1' := by
  have hkb : ∀ j, (P'.req j).kb = (P.req j).kb := fun j => by have := (hidx j).2; simp [Req.idx] at this; exact this.2.1
  have hk0 : ∀ j, (P'.req j).k0 = (P.req j).k0 := fun j => by have := (hidx j).2; simp [Req.idx] at this; exact this.2.2.1
  have hk1 : ∀ j, (P'.req j).k1 = (P.req j).k1 := fun j => by have := (hidx j).2; simp [Req.idx] at this; exact this.2.2.2
  cases a with
  | issue =>
    refine ⟨[.issue], ?_⟩
    simp only [run_one, step, h.running, h.issued] at hs ⊢
    split at hs
    · rename_i hr
      injection hs with hs; subst hs
      rw [if_pos hr]
      exact ⟨_, by first | rfl | trivial, rfl, h.pop, by simp only [h.queue, (hidx _).2], late_update h.phase _ .waiting, rfl,
        by simp only [hr]⟩
    · rename_i hr
      injection hs with hs; subst hs
      rw [if_neg hr]
      exact ⟨_, by first | rfl | trivial, rfl, h.pop, h.queue, late_update h.phase _ .done, rfl, by simp⟩
  | grant j =>
    refine ⟨[.grant j], ?_⟩
    simp only [run_one, step] at hs ⊢
    have hp := h.phase j
    generalize s.phase j = p at hp
    generalize s'.phase j = p' at hp hs
    cases hp with
    | idle => cases hs
    | evaluating => cases hs
    | recording => cases hs
    | done => cases hs
    | waiting =>
      have hg : granted P s j = granted P' s' j := by simp only [granted, (hidx _).2, h.queue]
      dsimp only at hs ⊢
      rw [hg, h.running, h.queue, h.pop]
      rw [(hidx j).1, hkb, hk0, hk1] at hs
      split at hs
      · rename_i hgr
        rw [if_pos hgr]
        split at hs
        · rename_i hr
          rw [if_pos hr]
          have ht := htrial j (s'.pop (P.req j).kt) (s'.pop (P.req j).kb) (s'.pop (P.req j).k0) (s'.pop (P.req j).k1)
          generalize (P.req j).trial _ _ _ _ = o at ht
          generalize (P'.req j).trial _ _ _ _ = o' at ht hs
          rcases ht with rfl | ⟨i, i', rfl, rfl, hi, hi'⟩
          · cases o with
            | failedConstraints =>
              injection hs with hs; subst hs
              exact ⟨_, by first | rfl | trivial, rfl, rfl, rfl, late_update h.phase _ .done, h.issued, rfl⟩
            | fatal =>
              injection hs with hs; subst hs
              exact ⟨_, by first | rfl | trivial, rfl, rfl, rfl, late_update h.phase _ (.evaluating _ _ _ (.inl rfl)), h.issued, rfl⟩
            | evaluated i =>
              injection hs with hs; subst hs
              exact ⟨_, by first | rfl | trivial, rfl, rfl, rfl, late_update h.phase _ (.evaluating _ _ _ (.inl rfl)), h.issued, rfl⟩
          · injection hs with hs; subst hs
            exact ⟨_, by first | rfl | trivial, rfl, rfl, rfl,
              late_update h.phase _ (.evaluating _ _ _ (.inr ⟨i, i', rfl, rfl, hi, hi'⟩)), h.issued, rfl⟩
        · rename_i hr
          rw [if_neg hr]
          injection hs with hs; subst hs
          exact ⟨_, by first | rfl | trivial, rfl, rfl, rfl, late_update h.phase _ .done, h.issued, rfl⟩
      · cases hs
  | finish j =>
    have hp := h.phase j
    simp only [step] at hs
    cases hps' : s'.phase j with
    | idle => rw [hps'] at hs; cases hs
    | waiting => rw [hps'] at hs; cases hs
    | recording => rw [hps'] at hs; cases hs
    | done => rw [hps'] at hs; cases hs
    | evaluating t o' =>
      rw [hps'] at hp hs
      dsimp only at hs
      generalize hps : s.phase j = p at hp
      cases hp with
      | evaluating t o o' ho =>
        -- a losing challenge now waits for the history: nothing happens yet with xSSE
        have lose : ∀ i i', o = .evaluated i → o' = .evaluated i' → P.lt i t = false → P.lt i' t = false →
            s'.running = true → ∃ as s1, as.filter notEnding = [Act.finish j].filter notEnding ∧
              run P s as = some s1 ∧ SysLate P.lt s1 s1' := by
          rintro i i' rfl rfl hi hi' hr
          rw [hr] at hs
          simp only [hlt, hi', hx', Bool.false_eq_true, if_false, Bool.not_false, if_true] at hs
          injection hs with hs; subst hs
          refine ⟨[], s, rfl, rfl, h.pop, h.queue, ?_, h.issued, by rw [h.running]; exact hr⟩
          intro k
          dsimp only
          by_cases hk : k = j
          · subst hk; rw [Function.update_self, hps]; exact .recording t i hi
          · rw [Function.update_of_ne hk]; exact h.phase k
        cases hr : s'.running with
        | false =>
          rw [hr] at hs
          refine ⟨[.finish j], ?_⟩
          rw [run_one]
          simp only [step, hps, h.running, hr]
          have hs1 : s1' = { s' with
              running := false, queue := release s'.queue (P'.req j).kt, phase := Function.update s'.phase j .done } := by
            cases o' <;> (injection hs with hs; exact hs.symm)
          subst hs1
          cases o <;> exact ⟨_, by first | rfl | trivial, rfl, h.pop, by simp only [h.queue, (hidx j).1],
            late_update h.phase _ .done, h.issued, rfl⟩
        | true =>
          rcases ho with rfl | ⟨i, i', rfl, rfl, hi, hi'⟩
          · cases o with
            | failedConstraints =>
              rw [hr] at hs
              injection hs with hs; subst hs
              refine ⟨[.finish j], ?_⟩
              rw [run_one]
              simp only [step, hps]
              exact ⟨_, by first | rfl | trivial, rfl, h.pop, by simp only [h.queue, (hidx j).1], late_update h.phase _ .done, h.issued, rfl⟩
            | fatal =>
              rw [hr] at hs
              injection hs with hs; subst hs
              refine ⟨[.finish j], ?_⟩
              rw [run_one]
              simp only [step, hps]
              exact ⟨_, by first | rfl | trivial, rfl, h.pop, by simp only [h.queue, (hidx j).1], late_update h.phase _ .done, h.issued, rfl⟩
            | evaluated i =>
              by_cases hi : P.lt i t = true
              · rw [hr] at hs
                simp only [hlt, hi, if_true] at hs
                injection hs with hs; subst hs
                refine ⟨[.finish j], ?_⟩
                rw [run_one]
                simp only [step, hps, h.running, hr, hi, if_true]
                exact ⟨_, by first | rfl | trivial, rfl, by simp only [h.pop, (hidx j).1], by simp only [h.queue, (hidx j).1],
                  late_update h.phase _ .done, h.issued, rfl⟩
              · exact lose i i rfl rfl (by simpa using hi) (by simpa using hi) hr
          · exact lose i i' rfl rfl hi hi' hr
  | recorded j =>
    have hp := h.phase j
    simp only [step] at hs
    cases hps' : s'.phase j with
    | idle => rw [hps'] at hs; cases hs
    | waiting => rw [hps'] at hs; cases hs
    | evaluating => rw [hps'] at hs; cases hs
    | done => rw [hps'] at hs; cases hs
    | recording =>
      rw [hps'] at hp hs
      dsimp only at hs
      generalize hps : s.phase j = p at hp
      cases hp with
      | recording t i hi =>
        -- the evaluation ends now
        injection hs with hs; subst hs
        refine ⟨[.finish j], ?_⟩
        rw [run_one]
        cases hr : s'.running with
        | false =>
          simp only [step, hps, h.running, hr]
          exact ⟨_, rfl, rfl, h.pop, by simp only [h.queue, (hidx j).1], late_update h.phase _ .done,
            h.issued, by rfl⟩
        | true =>
          simp only [step, hps, h.running, hr, hi, hx, Bool.false_eq_true, if_false, Bool.not_true]
          exact ⟨_, rfl, rfl, h.pop, by simp only [h.queue, (hidx j).1], late_update h.phase _ .done,
            h.issued, rfl⟩
  | shutdown =>
    refine ⟨[.shutdown], ?_⟩
    rw [run_one]
    simp only [step] at hs ⊢
    injection hs with hs; subst hs
    exact ⟨_, by first | rfl | trivial, rfl, h.pop, h.queue, h.phase, h.issued, rfl⟩

theorem run_late {P P' : Params I} (hlt : P'.lt = P.lt) (hx : P.xSSE = true) (hx' : P'.xSSE = false)
    (hidx : ∀ j, (P'.req j).kt = (P.req j).kt ∧ (P'.req j).idx = (P.req j).idx)
    (htrial : ∀ j t b x y, Alike P.lt t ((P.req j).trial t b x y) ((P'.req j).trial t b x y)) (acts : List Act) :
    ∀ {s s' s1' : Sys I}, SysLate P.lt s s' → run P' s' acts = some s1' →
      ∃ as s1, as.filter notEnding = acts.filter notEnding ∧ run P s as = some s1 ∧ SysLate P.lt s1 s1' := by
  induction acts with
  | nil => intro s s' s1' h hs; injection hs with hs; subst hs; exact ⟨[], s, rfl, rfl, h⟩
  | cons a acts ih =>
    intro s s' s1' h hs
    rw [run] at hs
    cases hst : step P' s' a with
    | none => rw [hst] at hs; cases hs
    | some s2' =>
      rw [hst] at hs
      obtain ⟨as, s2, h1, h2, h3⟩ := step_late hlt hx hx' hidx htrial h a hst
      obtain ⟨bs, s1, h4, h5, h6⟩ := ih h3 hs
      refine ⟨as ++ bs, s1, ?_, ?_, h6⟩
      · rw [List.filter_append, h1, h4, ← List.filter_append]; rfl
      · rw [run_append_acts, h2]; exact h5

end DESystem

namespace Challenge

open DESystem

/-- C94, the other direction: whatever happens to the population without `xSSE` also can with it: every execution without
it corresponds to one with it, in which the same challenges begin in the same order, with the same population at
the end; the challenges that have ended are the same. -/
theorem C94_early_abort_converse (c : Config) (idx : ℕ → ℕ × ℕ × ℕ × ℕ) (draws : ℕ → Draws)
    (eval : ℕ → List ℚ → Option PyFloat → Individual.EvalResult) (heval : SoundAbort eval) (pop₀ : ℕ → Individual)
    (acts : List Act) (s : Sys Individual)
    (hs : run (params { c with xSSE := false } idx draws eval) (init pop₀) acts = some s) :
    ∃ acts' s', acts'.filter notEnding = acts.filter notEnding ∧
      run (params { c with xSSE := true } idx draws eval) (init pop₀) acts' = some s' ∧
      s'.pop = s.pop ∧ s'.running = s.running ∧ ∀ j, s'.phase j = .done ↔ s.phase j = .done := by
  obtain ⟨as, s', h1, h2, h3⟩ := run_late (P := params { c with xSSE := true } idx draws eval)
    (P' := params { c with xSSE := false } idx draws eval) rfl rfl rfl (fun _ => ⟨rfl, rfl⟩)
    (soundAbort_trial c idx draws eval heval) acts
    (s := init pop₀) (s' := init pop₀) ⟨rfl, rfl, fun _ => .idle, rfl, rfl⟩ hs
  refine ⟨as, s', h1, h2, h3.pop, h3.running, fun j => ?_⟩
  have hp := h3.phase j
  generalize s'.phase j = p at hp
  generalize s.phase j = p' at hp
  cases hp <;> simp

/-- Non-vacuity of C94_early_abort_converse: a run without `xSSE` in which a challenge loses and is recorded, after a
second one has been issued. -/
example : ∃ s, run (params { cfg with xSSE := false } (fun _ => (0, 1, 2, 3)) (fun _ => ⟨1 / 2, 0, fun _ => 3 / 4⟩) twoStages)
    (init demoPop) [.issue, .grant 0, .finish 0, .issue, .recorded 0, .grant 1] = some s ∧ SoundAbort twoStages ∧
    s.pop 0 = ind 5 [3, 1 / 2] ∧
    ∃ acts' s', run (params { cfg with xSSE := true } (fun _ => (0, 1, 2, 3)) (fun _ => ⟨1 / 2, 0, fun _ => 3 / 4⟩) twoStages)
      (init demoPop) acts' = some s' ∧ s'.pop = s.pop := by
  obtain ⟨s, hs, h0⟩ : ∃ s, run (params { cfg with xSSE := false } (fun _ => (0, 1, 2, 3))
      (fun _ => ⟨1 / 2, 0, fun _ => 3 / 4⟩) twoStages)
      (init demoPop) [.issue, .grant 0, .finish 0, .issue, .recorded 0, .grant 1] = some s ∧
      s.pop 0 = ind 5 [3, 1 / 2] := by
    have h : (run (params { cfg with xSSE := false } (fun _ => (0, 1, 2, 3))
      (fun _ => ⟨1 / 2, 0, fun _ => 3 / 4⟩) twoStages)
      (init demoPop) [.issue, .grant 0, .finish 0, .issue, .recorded 0, .grant 1]).map (fun s => s.pop 0) =
        some (ind 5 [3, 1 / 2]) := by decide +kernel
    rw [Option.map_eq_some_iff] at h
    exact h
  obtain ⟨as, s', _, h2, h3, _⟩ := C94_early_abort_converse cfg _ _ twoStages twoStages_sound demoPop _ s hs
  exact ⟨s, hs, twoStages_sound, h0, as, s', h2, h3⟩

end Challenge
end Ade
