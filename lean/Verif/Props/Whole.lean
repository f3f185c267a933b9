import Verif.Lemmas.Cases
import Verif.Props.SetupWork
import Verif.Props.Search
import Verif.Props.Trial
import Verif.Props.BestKept

/-!
# Property C106: an optimization as a whole

A setup (`Verif/Model/Setup.lean`) followed by a run (`Verif/Model/DESystem.lean`, `Verif/Model/Challenge.lean`) on the
population it leaves.
-/

set_option autoImplicit false

namespace Ade
namespace Whole

open Setup (Cfg St Event Proper start Scored Usable)
open ParamManager DESystem

/-! ## Specification -/

/-- Settings for the challenges in a population that was set up with `cfg`. -/
def config (cfg : Cfg) (CR : ℚ) (xSSE : Bool) : Challenge.Config := ⟨cfg.bounds, cfg.names, cfg.constraints, CR, xSSE⟩

/-- The population a setup leaves. -/
def population (s : St) : ℕ → Individual := fun k => s.members.getD k ⟨none, []⟩

/-- Values within the bounds and accepted by every constraint. -/
def LegalValues (cfg : Cfg) (vs : List ℚ) : Prop :=
  Within cfg.bounds vs ∧ ∃ d, IsParamsOf cfg.names vs d ∧ ∀ f ∈ cfg.constraints, f d = true

/-- The usable scores that evaluations of a setup gave, in the order in which they came. -/
def scores : List Event → List PyFloat
  | [] => []
  | .finish _ (.done (some x)) :: es => if Usable (.done (some x)) then x :: scores es else scores es
  | _ :: es => scores es

/-! ## The members are the first usable ones -/

theorem scores_append (es : List Event) (e : Event) : scores (es ++ [e]) = scores es ++ scores [e] := by
  induction es with
  | nil => rfl
  | cons a es ih =>
    cases a with
    | finish id r =>
      cases r with
      | failed => simpa [scores] using ih
      | done x =>
        cases x with
        | none => simpa [scores] using ih
        | some x =>
          simp only [List.cons_append, scores]
          split
          · rw [ih]; rfl
          · exact ih
    | resume => simpa [scores] using ih
    | abort => simpa [scores] using ih

theorem take_succ_append {α : Type} (n : ℕ) (xs : List α) (x : α) :
    (xs ++ [x]).take n = if xs.length < n then xs.take n ++ [x] else xs.take n := by
  split
  · rename_i h
    rw [List.take_of_length_le (by simp; omega), List.take_of_length_le h.le]
  · rename_i h
    rw [List.take_append_of_le_length (by omega)]

theorem finishEval_stored (i : Individual) (x : PyFloat) :
    (i.finishEval 0 (.done (some x))).1.stored = some x := by
  simp [Individual.finishEval, Individual.setSSE]

theorem step_scores {cfg : Cfg} (hb : cfg.blank = false) {es : List Event} {s s' : St} (e : Event)
    (hs : s.members.map (·.stored) = ((scores es).take cfg.Np).map some) (hst : Setup.step cfg s e = some s') :
    s'.members.map (·.stored) = ((scores (es ++ [e])).take cfg.Np).map some := by
  rw [scores_append]
  cases e with
  | resume =>
    have h0 : scores [Event.resume] = [] := rfl
    rw [h0, List.append_nil, ← hs]
    simp only [Setup.step] at hst
    split at hst
    · cases hst
    · split at hst
      · injection hst with hst; subst hst
        unfold Setup.done
        split <;> rfl
      · injection hst with hst; subst hst
        unfold Setup.round
        split
        · simp only [hb, Bool.false_eq_true, if_false]
        · rfl
  | abort =>
    have h0 : scores [Event.abort] = [] := rfl
    rw [h0, List.append_nil, ← hs]
    simp only [Setup.step] at hst
    have : s' = { s with running := false } := by
      cases hph : s.phase <;> rw [hph] at hst <;> simp at hst <;> exact hst.symm
    subst this
    rfl
  | finish id r =>
    simp only [Setup.step] at hst
    cases hf : s.flights.find? (fun f => f.id == id) with
    | none => rw [hf] at hst; simp at hst
    | some f =>
      rw [hf] at hst
      simp only [Option.some.injEq] at hst
      subst hst
      have hu := Setup.usable_iff f.ind r
      have hlen : s.members.length = min cfg.Np (scores es).length := by
        have := congrArg List.length hs
        simpa using this
      unfold Setup.evaluated
      cases hU : Usable r with
      | false =>
        have h0 : scores [Event.finish id r] = [] := by
          cases r with
          | failed => rfl
          | done x =>
            cases x with
            | none => rfl
            | some x => simp [scores, hU]
        rw [h0, List.append_nil, ← hs]
        by_cases hbb : (f.ind.finishEval 0 r).1.toBool = true
        · have hinf : (f.ind.finishEval 0 r).1.toFloat.isInf = true := by
            by_contra hc
            have := hu.2 ⟨hbb, by simpa using hc⟩
            rw [hU] at this; cases this
          simp [hbb, hinf]
        · simp only [Bool.not_eq_true] at hbb
          simp [hbb]
      | true =>
        obtain ⟨hbb, hinf⟩ := hu.1 hU
        cases r with
        | failed => cases hU
        | done x =>
          cases x with
          | none => cases hU
          | some x =>
            have h0 : scores [Event.finish id (.done (some x))] = [x] := by simp [scores, hU]
            rw [h0, take_succ_append]
            simp only [hbb, hinf, Setup.needMore, Bool.not_true, Bool.not_false, Bool.false_eq_true, if_false, Bool.true_and,
              decide_eq_true_eq]
            by_cases hlt : (scores es).length < cfg.Np
            · rw [if_pos (by omega), if_pos hlt]
              simp only [List.map_append, hs, List.map_cons, List.map_nil, finishEval_stored]
            · rw [if_neg (by omega), if_neg hlt]
              exact hs

/-- C106: the members of a population being set up are those with the usable scores that came first, in the order in which they
came. -/
theorem C106_first_usable (cfg : Cfg) (hb : cfg.blank = false) (es : List Event) (s : St)
    (hr : Setup.run cfg start es = some s) : s.members.map (·.stored) = ((scores es).take cfg.Np).map some := by
  have key : ∀ (es es₀ : List Event) (s s' : St), s.members.map (·.stored) = ((scores es₀).take cfg.Np).map some →
      Setup.run cfg s es = some s' → s'.members.map (·.stored) = ((scores (es₀ ++ es)).take cfg.Np).map some := by
    intro es
    induction es with
    | nil =>
      intro es₀ s s' hs hr
      simp only [Setup.run, Option.some.injEq] at hr
      subst hr
      simpa using hs
    | cons e es ih =>
      intro es₀ s s' hs hr
      simp only [Setup.run] at hr
      cases hst : Setup.step cfg s e with
      | none => rw [hst] at hr; simp at hr
      | some s₁ =>
        rw [hst] at hr
        have := ih (es₀ ++ [e]) s₁ s' (step_scores hb e hs hst) hr
        simpa using this
  exact key es [] start s (by simp [start, scores]) hr

/-! ## Only legal values -/

theorem legal_iff (cfg : Cfg) (hnd : cfg.names.Nodup) (hnl : cfg.names.length = cfg.bounds.length) (vs : List ℚ) :
    Setup.Legal cfg vs ↔ LegalValues cfg vs := by
  unfold Setup.Legal LegalValues
  constructor
  · rintro ⟨h1, h2⟩
    exact ⟨h1, (C07_passes_iff cfg.names hnd cfg.constraints vs (by rw [hnl, h1.length_eq])).1 h2⟩
  · rintro ⟨h1, h2⟩
    exact ⟨h1, (C07_passes_iff cfg.names hnd cfg.constraints vs (by rw [hnl, h1.length_eq])).2 h2⟩

theorem population_mem (s : St) (k : ℕ) (hk : k < s.members.length) : population s k ∈ s.members := by
  unfold population
  rw [List.getD_eq_getElem?_getD, List.getElem?_eq_getElem hk, Option.getD_some]
  exact List.getElem_mem hk

/-- C106: all members are legal at any time of the run that follows a completed setup. -/
theorem C106_members_legal (cfg : Cfg) (h : Proper cfg) (hnd : cfg.names.Nodup)
    (hnl : cfg.names.length = cfg.bounds.length) (es : List Event) (s₀ : St)
    (hr : Setup.run cfg start es = some s₀) (hd : s₀.phase = .finished true)
    (CR : ℚ) (xSSE : Bool) (idx : ℕ → ℕ × ℕ × ℕ × ℕ)
    (hidx : ∀ m, (idx m).1 < cfg.Np ∧ (idx m).2.1 < cfg.Np ∧ (idx m).2.2.1 < cfg.Np ∧ (idx m).2.2.2 < cfg.Np)
    (draws : ℕ → Challenge.Draws) (eval : ℕ → List ℚ → Option PyFloat → Individual.EvalResult) (s : Sys Individual)
    (hs : Reachable (Challenge.params (config cfg CR xSSE) idx draws eval) (population s₀) s) (k : ℕ) (hk : k < cfg.Np) :
    LegalValues cfg (s.pop k).values := by
  obtain ⟨hN, hl⟩ := Setup.C17_blank_setup cfg h es s₀ hr hd
  refine Challenge.C30_members_stay_legal (config cfg CR xSSE) h.bounds hnd hnl cfg.Np idx hidx draws eval (population s₀) ?_ s
    hs k hk
  intro k hk
  exact (legal_iff cfg hnd hnl _).1 (hl _ (population_mem s₀ k (by omega)))

/-- What a run does is the same for two evaluators that agree on legal values. -/
theorem step_agree (cfg : Cfg) (h : Proper cfg) (hnd : cfg.names.Nodup)
    (hnl : cfg.names.length = cfg.bounds.length) (CR : ℚ) (xSSE : Bool) (idx : ℕ → ℕ × ℕ × ℕ × ℕ)
    (hidx : ∀ m, (idx m).1 < cfg.Np ∧ (idx m).2.1 < cfg.Np ∧ (idx m).2.2.1 < cfg.Np ∧ (idx m).2.2.2 < cfg.Np)
    (draws : ℕ → Challenge.Draws) (eval eval' : ℕ → List ℚ → Option PyFloat → Individual.EvalResult)
    (hag : ∀ j vs x, LegalValues cfg vs → eval j vs x = eval' j vs x)
    (s : Sys Individual) (hs : ∀ k, k < cfg.Np → LegalValues cfg (s.pop k).values) (a : Act) :
    step (Challenge.params (config cfg CR xSSE) idx draws eval) s a =
      step (Challenge.params (config cfg CR xSSE) idx draws eval') s a := by
  cases a with
  | grant j =>
    have ht : Challenge.trial (config cfg CR xSSE) (draws j) (eval j) (s.pop (idx j).1) (s.pop (idx j).2.1)
          (s.pop (idx j).2.2.1) (s.pop (idx j).2.2.2) =
        Challenge.trial (config cfg CR xSSE) (draws j) (eval' j) (s.pop (idx j).1) (s.pop (idx j).2.1)
          (s.pop (idx j).2.2.1) (s.pop (idx j).2.2.2) := by
      obtain ⟨_, a2, a3, a4⟩ := hidx j
      have lb := (hs _ a2).1.length_eq.symm
      have l0 := (hs _ a3).1.length_eq.symm
      have l1 := (hs _ a4).1.length_eq.symm
      rw [Challenge.trial_eq, Challenge.trial_eq]
      split
      · rename_i hp
        rw [hag]
        refine (legal_iff cfg hnd hnl _).1 ⟨?_, hp⟩
        exact Challenge.C24_within (config cfg CR xSSE) h.bounds (draws j) _ _ _ _ lb l0 l1
      · rfl
    simp only [step, Challenge.params, granted, Req.idx, ht]
    rfl
  | _ => rfl

/-- C106: the evaluator is consulted about legal values only: with two evaluators that agree on legal values, any execution of
the run that follows a completed setup is the same. -/
theorem C106_only_legal_evaluated (cfg : Cfg) (h : Proper cfg) (hnd : cfg.names.Nodup)
    (hnl : cfg.names.length = cfg.bounds.length) (es : List Event) (s₀ : St)
    (hr : Setup.run cfg start es = some s₀) (hd : s₀.phase = .finished true)
    (CR : ℚ) (xSSE : Bool) (idx : ℕ → ℕ × ℕ × ℕ × ℕ)
    (hidx : ∀ m, (idx m).1 < cfg.Np ∧ (idx m).2.1 < cfg.Np ∧ (idx m).2.2.1 < cfg.Np ∧ (idx m).2.2.2 < cfg.Np)
    (draws : ℕ → Challenge.Draws) (eval eval' : ℕ → List ℚ → Option PyFloat → Individual.EvalResult)
    (hag : ∀ j vs x, LegalValues cfg vs → eval j vs x = eval' j vs x) (acts : List Act) :
    run (Challenge.params (config cfg CR xSSE) idx draws eval) (init (population s₀)) acts =
      run (Challenge.params (config cfg CR xSSE) idx draws eval') (init (population s₀)) acts := by
  have key : ∀ (acts pre : List Act) (s : Sys Individual),
      run (Challenge.params (config cfg CR xSSE) idx draws eval) (init (population s₀)) pre = some s →
      run (Challenge.params (config cfg CR xSSE) idx draws eval) s acts =
        run (Challenge.params (config cfg CR xSSE) idx draws eval') s acts := by
    intro acts
    induction acts with
    | nil => intro pre s _; rfl
    | cons a acts ih =>
      intro pre s hpre
      have hl := C106_members_legal cfg h hnd hnl es s₀ hr hd CR xSSE idx hidx draws eval s ⟨pre, hpre⟩
      simp only [run]
      rw [← step_agree cfg h hnd hnl CR xSSE idx hidx draws eval eval' hag s hl a]
      cases hst : step (Challenge.params (config cfg CR xSSE) idx draws eval) s a with
      | none => rfl
      | some s' =>
        simp only
        refine ih (pre ++ [a]) s' ?_
        exact (run_append _ pre [a] _ s').2 ⟨s, hpre, by simp [run, hst]⟩
  exact key acts [] _ rfl

/-! ## The best is kept -/

theorem usable_length (es : List Event) : Setup.usable es = (scores es).length := by
  induction es with
  | nil => rfl
  | cons a es ih =>
    cases a with
    | finish id r =>
      cases r with
      | failed => simp [Setup.usable, scores, Usable, ih]
      | done x =>
        cases x with
        | none => simp [Setup.usable, scores, Usable, ih]
        | some x =>
          simp only [Setup.usable, scores]
          split
          · simp [ih]; omega
          · simpa using ih
    | resume => simpa [Setup.usable, scores] using ih
    | abort => simpa [Setup.usable, scores] using ih

theorem scores_usable (es : List Event) : ∀ x ∈ scores es, x.lt .zero = false := by
  induction es with
  | nil => intro x hx; cases hx
  | cons a es ih =>
    cases a with
    | finish id r =>
      cases r with
      | failed => exact ih
      | done x =>
        cases x with
        | none => exact ih
        | some x =>
          simp only [scores]
          split
          · rename_i hu
            intro y hy
            rcases List.mem_cons.1 hy with rfl | hy
            · simp only [Usable, Bool.and_eq_true, Bool.not_eq_true'] at hu
              exact hu.2
            · exact ih y hy
          · exact ih
    | resume => exact ih
    | abort => exact ih

theorem sse_of_stored (i : Individual) (x : PyFloat) (h : i.stored = some x) (hx : x.lt .zero = false) : i.SSE = x := by
  simp [Individual.SSE, h, hx]

theorem lt_iff_SSE (i j : Individual) : i.lt j = i.SSE.lt j.SSE := by
  have key : ∀ i : Individual, i.toFloat = i.SSE := by
    intro i
    unfold Individual.toFloat
    split
    · rename_i h
      unfold Individual.SSE at h ⊢
      split at h
      · rfl
      · split at h
        · rename_i h2
          simp [h2]
        · rename_i h2
          exact absurd h h2
    · rfl
  rw [Individual.lt, key, key]

/-- C106: the best member at any time of a run is not worse than any of the first `Np` usable scores of the setup, nor than any
challenger evaluated. -/
theorem C106_best_partial (cfg : Cfg) (h : Proper cfg) (hb : cfg.blank = false) (es : List Event) (s₀ : St)
    (hr : Setup.run cfg start es = some s₀) (hd : s₀.phase = .finished true) (hnan : ∀ x ∈ scores es, x ≠ .nan)
    (P : Params Individual) (hdis : Distinct P) (hlt : P.lt = Individual.lt) (hidx : ∀ j, (P.req j).kt < cfg.Np)
    (acts : List Act) (s : Sys Individual) (hs : run P (init (population s₀)) acts = some s) (b : ℕ)
    (hbest : ∀ k, k < cfg.Np → (s.pop k).lt (s.pop b) = false) :
    (∀ x ∈ (scores es).take cfg.Np, x.lt (s.pop b).SSE = false) ∧
    (∀ c, Evaluated P (population s₀) acts c → c.lt (s.pop b) = false) ∧
    (Setup.usable es ≤ cfg.Np → ∀ x ∈ scores es, x.lt (s.pop b).SSE = false) := by
  obtain ⟨hN, -⟩ := Setup.C17_blank_setup cfg h es s₀ hr hd
  have hm := C106_first_usable cfg hb es s₀ hr
  have hst : ∀ k (hk : k < cfg.Np), ∃ hk' : k < ((scores es).take cfg.Np).length,
      (population s₀ k).stored = some ((scores es).take cfg.Np)[k] := by
    intro k hk
    have hlen : ((scores es).take cfg.Np).length = cfg.Np := by
      have := congrArg List.length hm
      rw [List.length_map, List.length_map, hN] at this
      exact this.symm
    have hk' : k < ((scores es).take cfg.Np).length := by omega
    refine ⟨hk', ?_⟩
    have hks : k < s₀.members.length := by omega
    have := congrArg (fun l => l[k]?) hm
    simp only [List.getElem?_map, List.getElem?_eq_getElem hks, List.getElem?_eq_getElem hk', Option.map_some,
      Option.some.injEq] at this
    unfold population
    rw [List.getD_eq_getElem?_getD, List.getElem?_eq_getElem hks, Option.getD_some]
    exact this
  have hsse : ∀ k (hk : k < cfg.Np), ∃ x ∈ scores es, (population s₀ k).SSE = x := by
    intro k hk
    obtain ⟨hk', e⟩ := hst k hk
    have hx := List.mem_of_mem_take (List.getElem_mem hk')
    exact ⟨_, hx, sse_of_stored _ _ e (scores_usable es _ hx)⟩
  have key := BestKept.C88_best_never_lost P hdis hlt (population s₀) cfg.Np hidx ?_ acts s hs b hbest
  · have first : ∀ x ∈ (scores es).take cfg.Np, x.lt (s.pop b).SSE = false := by
      intro x hx
      obtain ⟨k, hk, rfl⟩ := List.getElem_of_mem hx
      have hkN : k < cfg.Np := by
        have := List.length_take_le cfg.Np (scores es)
        omega
      obtain ⟨hk', e⟩ := hst k hkN
      have h1 := key.1 k hkN
      rw [lt_iff_SSE, sse_of_stored _ _ e (scores_usable es _ (List.mem_of_mem_take hx))] at h1
      exact h1
    refine ⟨first, key.2.1, fun hu x hx => first x ?_⟩
    rw [usable_length] at hu
    rw [List.take_of_length_le hu]
    exact hx
  · intro k hk
    obtain ⟨x, hx, e⟩ := hsse k hk
    rw [e]
    exact hnan x hx

/-! ## Surplus evaluations -/

/-- Events of a setup of three members with two evaluations at a time (`Setup.demo`): the first evaluation takes long; when
it ends, with by far the best score, there are three members already. -/
def surplus : List Event :=
  [.resume, .resume, .finish 1 (.done (some (.fin 4))), .resume, .finish 2 (.done (some (.fin 3))), .resume,
    .finish 3 (.done (some (.fin 2))), .resume, .finish 0 (.done (some (.fin 0))), .resume]

/-- C106 is false for the code: an initial individual that is better than all others is lost if it is evaluated last. -/
theorem C106_surplus_lost : ∃ s, Setup.run Setup.demo start surplus = some s ∧ s.phase = .finished true ∧
    scores surplus = [.fin 4, .fin 3, .fin 2, .fin 0] ∧ s.members.map (·.stored) = [some (.fin 4), some (.fin 3), some (.fin 2)] := by
  have h : (Setup.run Setup.demo start surplus).map (fun s => (s.phase, s.members.map (·.stored))) =
      some (.finished true, [some (.fin 4), some (.fin 3), some (.fin 2)]) := by decide +kernel
  obtain ⟨s, h1, h2⟩ := Option.map_eq_some_iff.1 h
  injection h2 with h3 h4
  exact ⟨s, h1, h3, by decide +kernel, h4⟩

/-- Four members. -/
def demo4 : Cfg := { Setup.demo with Np := 4 }

/-- Events of its setup; the first evaluation is a surplus one. -/
def events4 : List Event :=
  [.resume, .resume, .finish 1 (.done (some (.fin 4))), .resume, .finish 2 (.done (some (.fin 3))), .resume,
    .finish 3 (.done (some (.fin 2))), .resume, .finish 4 (.done (some (.fin 5))), .resume,
    .finish 0 (.done (some (.fin 0))), .resume]

/-- Non-vacuity: a completed setup with a later run on its population, in which the second member is replaced. -/
example : (∀ x ∈ scores events4, x ≠ .nan) ∧ demo4.names.Nodup ∧ demo4.names.length = demo4.bounds.length ∧
    (Setup.run demo4 start events4).bind (fun s₀ =>
      (run (Challenge.params (config demo4 (1 / 2) false) (fun _ => (1, 0, 2, 3)) (fun _ => ⟨1 / 2, 0, fun _ => 0⟩)
        (fun _ _ _ => .done (some (.fin 1)))) (init (population s₀)) [.issue, .grant 0, .finish 0]).map
          (fun s => (s₀.phase, (s.pop 0).stored, (s.pop 1).stored, (s.pop 2).stored))) =
        some (.finished true, some (.fin 4), some (.fin 1), some (.fin 2)) := by
  refine ⟨by decide +kernel, by decide +kernel, by decide +kernel, ?_⟩
  with_unfolding_all rfl

theorem demo4_proper : Proper demo4 := ⟨Setup.demo_proper.1, Setup.demo_proper.2⟩

/-- The state in which the setup ends. -/
def end4 : St := (Setup.run demo4 start events4).get (by decide +kernel)

/-- A run on the resulting population. -/
def params4 : Params Individual :=
  Challenge.params (config demo4 (1 / 2) false) (fun _ => (1, 0, 2, 3)) (fun _ => ⟨1 / 2, 0, fun _ => 0⟩)
    (fun _ _ _ => .done (some (.fin 1)))

/-- Its state after one challenge. -/
def later4 : Sys Individual :=
  (run params4 (init (population end4)) [.issue, .grant 0, .finish 0]).get (by decide +kernel)

example := C106_first_usable demo4 rfl events4 end4 (eq_get _)

example := C106_members_legal demo4 demo4_proper (by decide) (by decide) events4 end4 (eq_get _) (by decide +kernel)
  (1 / 2) false (fun _ => (1, 0, 2, 3)) (fun _ => by simp [demo4, Setup.demo]) (fun _ => ⟨1 / 2, 0, fun _ => 0⟩)
  (fun _ _ _ => .done (some (.fin 1))) later4 ⟨[.issue, .grant 0, .finish 0], eq_get _⟩ 1 (by decide)

theorem legal4 {vs : List ℚ} (h : LegalValues demo4 vs) : ∀ v ∈ vs, v ≤ 10 := by
  obtain ⟨hw, -⟩ := h
  intro v hv
  cases hw with
  | cons h1 h2 =>
    cases h2
    simp only [List.mem_singleton] at hv
    rw [hv]
    exact h1.2

example := C106_only_legal_evaluated demo4 demo4_proper (by decide) (by decide) events4 end4 (eq_get _)
  (by decide +kernel) (1 / 2) false (fun _ => (1, 0, 2, 3)) (fun _ => by simp [demo4, Setup.demo])
  (fun _ => ⟨1 / 2, 0, fun _ => 0⟩) (fun _ vs _ => if ∀ v ∈ vs, v ≤ 10 then .done (some (.fin 1)) else .failed)
  (fun _ _ _ => .done (some (.fin 1))) (fun _ _ _ h => if_pos (legal4 h)) [.issue, .grant 0, .finish 0]

example := C106_best_partial demo4 demo4_proper rfl events4 end4 (eq_get _) (by decide +kernel) (by decide +kernel)
  params4 (fun _ => by show [1, 0, 2, 3].Nodup; decide) rfl (fun _ => by simp [params4, Challenge.params, demo4, Setup.demo])
  [.issue, .grant 0, .finish 0] later4 (eq_get _) 1
  (fun k hk => by
    have : k < 4 := hk
    obtain rfl | rfl | rfl | rfl : k = 0 ∨ k = 1 ∨ k = 2 ∨ k = 3 := by omega
    all_goals decide +kernel)

end Whole
end Ade
