import Verif.Model.RunSystem
import Verif.Props.DESystem

/-! Invariants of the whole run of `Verif/Model/RunSystem.lean`. -/

set_option autoImplicit false

namespace Ade
namespace RunSystem

open DESystem

variable {I : Type}

/-- The choices are of four different indices (which C25 shows of those the program makes). -/
def Cfg.Distinct (c : Cfg I) : Prop :=
  ∀ n kt pop, kt < c.Np → [kt, (c.pick n kt pop).kb, (c.pick n kt pop).k0, (c.pick n kt pop).k1].Nodup

/-- `P` has the settings of `c` and begins with the challenges `reqs`. -/
structure Agrees (c : Cfg I) (reqs : List (Req I)) (P : Params I) : Prop where
  lt : P.lt = c.lt
  xSSE : P.xSSE = c.xSSE
  req : ∀ n r, reqs[n]? = some r → P.req n = r

theorem agrees_params (c : Cfg I) (reqs : List (Req I)) : Agrees c reqs (params c reqs) :=
  ⟨rfl, rfl, fun n r h => by simp [params, List.getD_eq_getElem?_getD, h]⟩

theorem Agrees.of_append {c : Cfg I} {reqs more : List (Req I)} {P : Params I} (h : Agrees c (reqs ++ more) P) :
    Agrees c reqs P :=
  ⟨h.lt, h.xSSE, fun n r hr => h.req n r (by
    rw [List.getElem?_append_left]
    · exact hr
    · exact (List.getElem?_eq_some_iff.1 hr).1)⟩

/-- Challenges that were issued have their parameters in the list. -/
theorem Agrees.eq_params {c : Cfg I} {reqs : List (Req I)} {P : Params I} (h : Agrees c reqs P) {j : ℕ}
    (hj : j < reqs.length) : P.req j = (params c reqs).req j := by
  rw [h.req j reqs[j] (by simp [hj]), (agrees_params c reqs).req j reqs[j] (by simp [hj])]

/-- An act depends only on the parameters of the challenge concerned. -/
theorem step_congr {P Q : Params I} (hlt : P.lt = Q.lt) (hx : P.xSSE = Q.xSSE) (s : Sys I) (a : Act)
    (hi : a = .issue → P.req s.issued = Q.req s.issued)
    (h : ∀ j, s.phase j ≠ .idle → P.req j = Q.req j) : DESystem.step P s a = DESystem.step Q s a := by
  cases a with
  | issue => simp only [DESystem.step, hi rfl]
  | grant j =>
    simp only [DESystem.step]
    cases hp : s.phase j <;> simp only
    have := h j (by simp [hp])
    unfold granted
    rw [this]
  | finish j =>
    simp only [DESystem.step]
    cases hp : s.phase j <;> simp only
    have := h j (by simp [hp])
    simp only [this, hlt, hx]
  | recorded j =>
    simp only [DESystem.step]
    cases hp : s.phase j <;> simp only
    have := h j (by simp [hp])
    simp only [this]
  | shutdown => rfl

/-- All challenges issued have returned. -/
def AllDone (s : Sys I) : Prop := ∀ j, j < s.issued → s.phase j = .done

/-- What is known at the various stages. -/
def StageInv (c : Cfg I) (pop₀ : ℕ → I) (s : RS I) : Stage → Prop
  | .opening => s.sys.issued = 0 ∧ s.failed = false ∧ s.sys.pop = pop₀
  | .reports g => s.sys.issued = g * c.Np ∧ s.failed = false ∧ g < c.maxiter ∧ AllDone s.sys ∧
      s.sys.pop = Sequential.popAfter c.lt (params c s.reqs).req pop₀ s.sys.issued
  | .issuing g kt => kt < c.Np ∧ s.sys.issued = g * c.Np + kt ∧ s.first = g * c.Np ∧ g < c.maxiter ∧
      s.sys.running = true ∧ ∀ j, j < s.first → s.sys.phase j = .done
  | .waiting g => s.sys.issued = (g + 1) * c.Np ∧ s.first = g * c.Np ∧ g < c.maxiter ∧ s.failed = false ∧
      s.sys.running = true ∧ ∀ j, j < s.first → s.sys.phase j = .done
  | .closing => (∃ g ≤ c.maxiter, s.sys.issued = g * c.Np) ∧ s.failed = false ∧ AllDone s.sys ∧
      s.sys.pop = Sequential.popAfter c.lt (params c s.reqs).req pop₀ s.sys.issued
  | .ended true => (∃ g ≤ c.maxiter, s.sys.issued = g * c.Np) ∧ s.failed = false ∧ AllDone s.sys ∧
      s.sys.running = false ∧
      s.sys.pop = Sequential.popAfter c.lt (params c s.reqs).req pop₀ s.sys.issued
  | .ended false => s.sys.running = false

/-- Invariant of the whole run. -/
structure RInv (c : Cfg I) (pop₀ : ℕ → I) (s : RS I) : Prop where
  length : s.reqs.length = s.sys.issued
  idle : ∀ j, s.sys.issued ≤ j → s.sys.phase j = .idle
  nodup : ∀ r ∈ s.reqs, r.idx.Nodup
  reach : s.failed = false → ∀ P, Agrees c s.reqs P → Reachable P pop₀ s.sys
  stage : StageInv c pop₀ s s.stage

/-- What has to be known about the stage before `settle`. -/
def StagePre (c : Cfg I) (pop₀ : ℕ → I) (s : RS I) : Stage → Prop
  | .issuing g kt => kt < c.Np ∧ s.sys.issued = g * c.Np + kt ∧ s.first = g * c.Np ∧ g < c.maxiter ∧
      ∀ j, j < s.first → s.sys.phase j = .done
  | .waiting g => s.sys.issued = (g + 1) * c.Np ∧ s.first = g * c.Np ∧ g < c.maxiter ∧
      ∀ j, j < s.first → s.sys.phase j = .done
  | st => StageInv c pop₀ s st

theorem agrees_distinct {c : Cfg I} {reqs : List (Req I)} (h : ∀ r ∈ reqs, r.idx.Nodup) :
    Distinct (params c reqs) := by
  intro j
  by_cases hj : j < reqs.length
  · rw [(agrees_params c reqs).req j reqs[j] (by simp [hj])]
    exact h _ (List.getElem_mem hj)
  · simp [params, List.getD_eq_getElem?_getD, List.getElem?_eq_none (Nat.le_of_not_lt hj), Req.idx]

theorem reach_stop {c : Cfg I} {pop₀ : ℕ → I} {reqs : List (Req I)} {s : Sys I}
    (h : ∀ P, Agrees c reqs P → Reachable P pop₀ s) : ∀ P, Agrees c reqs P → Reachable P pop₀ (stop s) := by
  intro P hP
  obtain ⟨acts, ha⟩ := h P hP
  exact ⟨_, run_concat ha (a := .shutdown) rfl⟩

theorem rinv_settle {c : Cfg I} {pop₀ : ℕ → I} {s : RS I} (h1 : s.reqs.length = s.sys.issued)
    (h2 : ∀ j, s.sys.issued ≤ j → s.sys.phase j = .idle) (h3 : ∀ r ∈ s.reqs, r.idx.Nodup)
    (h4 : s.failed = false → ∀ P, Agrees c s.reqs P → Reachable P pop₀ s.sys)
    (h5 : StagePre c pop₀ s s.stage) : RInv c pop₀ (settle s) := by
  unfold settle
  cases hst : s.stage with
  | issuing g kt =>
    rw [hst] at h5
    obtain ⟨a1, a2, a3, a4, a5⟩ := h5
    by_cases hr : s.sys.running = true
    · simp only [hr, if_true]
      exact ⟨h1, h2, h3, h4, by rw [hst]; exact ⟨a1, a2, a3, a4, hr, a5⟩⟩
    · simp only [Bool.not_eq_true] at hr
      simp only [hr, Bool.false_eq_true, if_false]
      exact ⟨h1, h2, h3, h4, hr⟩
  | waiting g =>
    rw [hst] at h5
    obtain ⟨a2, a3, a4, a5⟩ := h5
    by_cases hr : (s.sys.running && !s.failed) = true
    · simp only [hr, if_true]
      simp only [Bool.and_eq_true, Bool.not_eq_true'] at hr
      exact ⟨h1, h2, h3, h4, by rw [hst]; exact ⟨a2, a3, a4, hr.2, hr.1, a5⟩⟩
    · simp only [hr]
      exact ⟨h1, h2, h3, fun hf => reach_stop (h4 hf), rfl⟩
  | opening => rw [hst] at h5; exact ⟨h1, h2, h3, h4, by rw [hst]; exact h5⟩
  | reports g => rw [hst] at h5; exact ⟨h1, h2, h3, h4, by rw [hst]; exact h5⟩
  | closing => rw [hst] at h5; exact ⟨h1, h2, h3, h4, by rw [hst]; exact h5⟩
  | ended b => rw [hst] at h5; exact ⟨h1, h2, h3, h4, by rw [hst]; exact h5⟩

/-- What the acts of challenges leave as it is. -/
theorem progress_keeps {P : Params I} {s s' : Sys I} {a : Act} (ha : a.isProgress = true)
    (hs : DESystem.step P s a = some s') :
    s'.issued = s.issued ∧ (s.running = false → s'.running = false) ∧
      (∃ j, s.phase j ≠ .idle ∧ s.phase j ≠ .done ∧ ∀ i, i ≠ j → s'.phase i = s.phase i) := by
  cases a with
  | issue => cases ha
  | shutdown => cases ha
  | grant j =>
    simp only [DESystem.step] at hs
    cases hp : s.phase j <;> simp only [hp] at hs <;> try contradiction
    have key : ∀ p, ∃ i, s.phase i ≠ .idle ∧ s.phase i ≠ .done ∧
        ∀ k, k ≠ i → Function.update s.phase j p k = s.phase k :=
      fun p => ⟨j, by simp [hp], by simp [hp], fun k hk => by simp [hk]⟩
    split at hs
    · split at hs
      · split at hs <;> (injection hs with hs; subst hs; exact ⟨rfl, id, key _⟩)
      · injection hs with hs; subst hs; exact ⟨rfl, id, key _⟩
    · cases hs
  | finish j =>
    simp only [DESystem.step] at hs
    cases hp : s.phase j <;> simp only [hp] at hs <;> try contradiction
    have key : ∀ p, ∃ i, s.phase i ≠ .idle ∧ s.phase i ≠ .done ∧
        ∀ k, k ≠ i → Function.update s.phase j p k = s.phase k :=
      fun p => ⟨j, by simp [hp], by simp [hp], fun k hk => by simp [hk]⟩
    split at hs
    · split at hs
      · injection hs with hs; subst hs; exact ⟨rfl, id, key _⟩
      · split at hs <;> (injection hs with hs; subst hs; exact ⟨rfl, id, key _⟩)
    · injection hs with hs; subst hs; exact ⟨rfl, fun _ => rfl, key _⟩
  | recorded j =>
    simp only [DESystem.step] at hs
    cases hp : s.phase j <;> simp only [hp] at hs <;> try contradiction
    injection hs with hs; subst hs
    exact ⟨rfl, id, j, by simp [hp], by simp [hp], fun k hk => by simp [hk]⟩

theorem rinv_challenge {c : Cfg I} {pop₀ : ℕ → I} {s s' : RS I} {a : Act} (h : RInv c pop₀ s)
    (ha : a.isProgress = true) (hs : challengeStep c s a = some s') : RInv c pop₀ s' := by
  unfold challengeStep at hs
  cases hst : DESystem.step (params c s.reqs) s.sys a with
  | none => rw [hst] at hs; cases hs
  | some t =>
    rw [hst] at hs
    injection hs with hs
    subst hs
    obtain ⟨k1, k2, j, k3, k4, k5⟩ := progress_keeps ha hst
    have hj : j < s.sys.issued := by
      by_contra hc; exact k3 (h.idle j (Nat.le_of_not_lt hc))
    apply rinv_settle
    · simp only [k1]; exact h.length
    · intro i hi
      simp only [k1] at hi
      have hij : i ≠ j := by omega
      simp only [k5 i hij]
      exact h.idle i hi
    · exact h.nodup
    · intro hf P hP
      obtain ⟨acts, hacts⟩ := h.reach hf P hP
      refine ⟨acts ++ [a], run_concat hacts ?_⟩
      rw [← hst]
      apply step_congr hP.lt hP.xSSE
      · intro e; subst e; cases ha
      · intro i hi
        apply hP.eq_params
        rw [h.length]
        by_contra hc
        exact hi (h.idle i (Nat.le_of_not_lt hc))
    · have hS := h.stage
      have hnd : ¬ AllDone s.sys := fun hd => k4 (hd j hj)
      cases hstg : s.stage with
      | opening => rw [hstg] at hS; have := hS.1; omega
      | reports g => rw [hstg] at hS; exact absurd hS.2.2.2.1 hnd
      | closing => rw [hstg] at hS; exact absurd hS.2.2.1 hnd
      | ended b =>
        rw [hstg] at hS
        cases b with
        | true => exact absurd hS.2.2.1 hnd
        | false => exact k2 hS
      | issuing g kt =>
        rw [hstg] at hS
        obtain ⟨a1, a2, a3, a4, a5, a6⟩ := hS
        refine ⟨a1, by simp only [k1]; exact a2, a3, a4, ?_⟩
        intro i hi
        have hij : i ≠ j := by rintro rfl; exact k4 (a6 i hi)
        simp only [k5 i hij]; exact a6 i hi
      | waiting g =>
        rw [hstg] at hS
        obtain ⟨a2, a3, a4, a5, a6, a7⟩ := hS
        refine ⟨by simp only [k1]; exact a2, a3, a4, ?_⟩
        intro i hi
        have hij : i ≠ j := by rintro rfl; exact k4 (a7 i hi)
        simp only [k5 i hij]; exact a7 i hi

theorem rinv_issue {c : Cfg I} (hd : c.Distinct) {pop₀ : ℕ → I} {s s' : RS I} (h : RInv c pop₀ s)
    (hs : step c s .issue = some s') : RInv c pop₀ s' := by
  unfold step at hs
  have hS := h.stage
  cases hstg : s.stage with
  | issuing g kt =>
    rw [hstg] at hS
    obtain ⟨a1, a2, a3, a4, a5, a6⟩ := hS
    simp only [hstg] at hs
    generalize hr : (⟨kt, (c.pick s.sys.issued kt s.sys.pop).kb, (c.pick s.sys.issued kt s.sys.pop).k0,
      (c.pick s.sys.issued kt s.sys.pop).k1, (c.pick s.sys.issued kt s.sys.pop).trial⟩ : Req I) = r at hs
    have hnd : r.idx.Nodup := by subst hr; exact hd _ _ _ a1
    cases ht : DESystem.step (params c (s.reqs ++ [r])) s.sys .issue with
    | none => rw [ht] at hs; cases hs
    | some t =>
      rw [ht] at hs
      injection hs with hs
      have ht0 := ht
      simp only [DESystem.step, a5, if_true] at ht
      injection ht with ht
      have t1 : t.issued = s.sys.issued + 1 := by rw [← ht]
      have t2 : t.phase = Function.update s.sys.phase s.sys.issued .waiting := by rw [← ht]
      clear ht
      subst hs
      apply rinv_settle
      · simp [nextTarget, h.length, t1]
      · intro j hj
        simp only [nextTarget, t1, t2] at hj ⊢
        have : j ≠ s.sys.issued := by omega
        simp only [ne_eq, this, not_false_eq_true, Function.update_of_ne]
        exact h.idle j (by omega)
      · intro x hx
        simp only [nextTarget, List.mem_append, List.mem_singleton] at hx
        rcases hx with hx | rfl
        · exact h.nodup x hx
        · exact hnd
      · intro hf P hP
        simp only [nextTarget] at hf hP ⊢
        obtain ⟨acts, hacts⟩ := h.reach hf P hP.of_append
        refine ⟨acts ++ [.issue], run_concat hacts ?_⟩
        rw [← ht0]
        apply step_congr hP.lt hP.xSSE
        · intro _
          apply hP.eq_params
          simp [h.length]
        · intro i hi
          apply hP.eq_params
          have : i < s.sys.issued := by
            by_contra hc
            exact hi (h.idle i (Nat.le_of_not_lt hc))
          simp [h.length]
          omega
      · have hdone : ∀ j, j < s.first → t.phase j = .done := by
          intro j hj
          have : j ≠ s.sys.issued := by omega
          rw [t2]
          simp only [ne_eq, this, not_false_eq_true, Function.update_of_ne]
          exact a6 j hj
        by_cases hk : kt + 1 = c.Np
        · simp only [nextTarget, hk, if_true]
          refine ⟨?_, a3, a4, hdone⟩
          show t.issued = _
          rw [t1, a2, Nat.succ_mul]; omega
        · simp only [nextTarget, hk, if_false]
          refine ⟨by omega, ?_, a3, a4, hdone⟩
          show t.issued = _
          rw [t1, a2]; omega
  | _ => simp [hstg] at hs

theorem stageInv_stop {c : Cfg I} {pop₀ : ℕ → I} {s : RS I} (h : StageInv c pop₀ s s.stage) :
    StagePre c pop₀ { s with sys := stop s.sys } s.stage := by
  cases hst : s.stage with
  | issuing g kt => rw [hst] at h; exact ⟨h.1, h.2.1, h.2.2.1, h.2.2.2.1, h.2.2.2.2.2⟩
  | waiting g => rw [hst] at h; exact ⟨h.1, h.2.1, h.2.2.1, h.2.2.2.2.2⟩
  | opening => rw [hst] at h; exact h
  | reports g => rw [hst] at h; exact h
  | closing => rw [hst] at h; exact h
  | ended b =>
    rw [hst] at h
    cases b with
    | true => exact ⟨h.1, h.2.1, h.2.2.1, rfl, h.2.2.2.2⟩
    | false => rfl

theorem rinv_step {c : Cfg I} (hd : c.Distinct) {pop₀ : ℕ → I} {s s' : RS I} {a : RAct} (h : RInv c pop₀ s)
    (hs : step c s a = some s') : RInv c pop₀ s' := by
  have hS := h.stage
  cases a with
  | issue => exact rinv_issue hd h hs
  | grant j => exact rinv_challenge h rfl hs
  | finish j => exact rinv_challenge h rfl hs
  | recorded j =>
    simp only [step] at hs
    split at hs
    · cases hs
    · exact rinv_challenge h rfl hs
  | blocks =>
    simp only [step] at hs
    injection hs with hs; subst hs
    exact ⟨h.length, h.idle, h.nodup, h.reach, by
      cases hst : s.stage <;> rw [hst] at hS
      case ended b => cases b <;> exact hS
      all_goals exact hS⟩
  | shutdown =>
    simp only [step] at hs
    injection hs with hs; subst hs
    exact rinv_settle h.length h.idle h.nodup (fun hf => reach_stop (h.reach hf)) (stageInv_stop hS)
  | fails j =>
    simp only [step] at hs
    split at hs
    · cases hs
    · cases hp : s.sys.phase j <;> simp only [hp] at hs <;> try contradiction
      injection hs with hs; subst hs
      have hj : j < s.sys.issued := by
        by_contra hc; have := h.idle j (Nat.le_of_not_lt hc); rw [hp] at this; cases this
      have hnd : ¬ AllDone s.sys := fun hd => by have := hd j hj; rw [hp] at this; cases this
      apply rinv_settle
      · exact h.length
      · intro i hi
        have hij : i ≠ j := by rintro rfl; exact absurd hj (Nat.not_lt.2 hi)
        simp only [ne_eq, hij, not_false_eq_true, Function.update_of_ne]
        exact h.idle i hi
      · exact h.nodup
      · intro hf; cases hf
      · have hup : ∀ i, s.sys.phase i = .done → Function.update s.sys.phase j .done i = .done := by
          intro i hi
          by_cases hij : i = j
          · subst hij; simp
          · simp [hij, hi]
        cases hstg : s.stage with
        | opening => rw [hstg] at hS; have := hS.1; omega
        | reports g => rw [hstg] at hS; exact absurd hS.2.2.2.1 hnd
        | closing => rw [hstg] at hS; exact absurd hS.2.2.1 hnd
        | ended b =>
          rw [hstg] at hS
          cases b with
          | true => exact absurd hS.2.2.1 hnd
          | false => exact hS
        | issuing g kt =>
          rw [hstg] at hS
          obtain ⟨a1, a2, a3, a4, a5, a6⟩ := hS
          exact ⟨a1, a2, a3, a4, fun i hi => hup i (a6 i hi)⟩
        | waiting g =>
          rw [hstg] at hS
          obtain ⟨a2, a3, a4, a5, a6, a7⟩ := hS
          exact ⟨a2, a3, a4, fun i hi => hup i (a7 i hi)⟩
  | reported =>
    simp only [step] at hs
    split at hs
    · cases hs
    · cases hstg : s.stage with
      | opening =>
        rw [hstg] at hS
        simp only [hstg, Option.some.injEq] at hs
        subst hs
        obtain ⟨a1, a2, a3⟩ := hS
        have hall : AllDone s.sys := fun j hj => by omega
        have hpop : s.sys.pop = Sequential.popAfter c.lt (params c s.reqs).req pop₀ s.sys.issued := by
          rw [a1, a3]; rfl
        refine ⟨h.length, h.idle, h.nodup, h.reach, ?_⟩
        by_cases hm : 0 = c.maxiter
        · by_cases hr : s.sys.running = true
          · simp only [enter, hm, hr, if_true]
            exact ⟨⟨0, by omega, by simpa using a1⟩, a2, hall, hpop⟩
          · simp only [enter, hm, hr, if_true]
            simpa [StageInv] using hr
        · simp only [enter, hm, if_false]
          exact ⟨by simpa using a1, a2, by omega, hall, hpop⟩
      | reports g =>
        rw [hstg] at hS
        obtain ⟨a1, a2, a3, a4, a5⟩ := hS
        simp only [hstg] at hs
        by_cases hr : s.sys.running = true
        · simp only [hr, if_true, Option.some.injEq] at hs
          subst hs
          refine ⟨h.length, h.idle, h.nodup, h.reach, ?_⟩
          by_cases hN : 0 = c.Np
          · simp only [nextTarget, hN, if_true]
            refine ⟨?_, a1, a3, a2, hr, a4⟩
            show s.sys.issued = _
            rw [a1, ← hN]; simp
          · simp only [nextTarget, hN, if_false]
            exact ⟨by omega, by simpa using a1, a1, a3, hr, a4⟩
        · rw [if_neg hr] at hs
          injection hs with hs
          subst hs
          exact ⟨h.length, h.idle, h.nodup, h.reach, by simpa [StageInv] using hr⟩
      | closing =>
        rw [hstg] at hS
        simp only [hstg, Option.some.injEq] at hs
        subst hs
        obtain ⟨a1, a2, a3, a4⟩ := hS
        exact ⟨h.length, h.idle, h.nodup, fun hf => reach_stop (h.reach hf), a1, a2, a3, rfl, a4⟩
      | _ => simp [hstg] at hs
  | collect st cb =>
    simp only [step] at hs
    cases hstg : s.stage with
    | waiting g =>
      rw [hstg] at hS
      obtain ⟨a1, a2, a3, a4, a5, a6⟩ := hS
      simp only [hstg] at hs
      split at hs
      · rename_i hall
        have hdone : AllDone s.sys := by
          intro j hj
          by_cases hjf : j < s.first
          · exact a6 j hjf
          · have := List.all_eq_true.1 hall (j - s.first) (by simp; omega)
            rw [Nat.add_sub_cancel' (Nat.le_of_not_lt hjf)] at this
            cases hp : s.sys.phase j <;> simp_all [isDone]
        have hpop : s.sys.pop = Sequential.popAfter c.lt (params c s.reqs).req pop₀ s.sys.issued :=
          C28_async_eq_sequential (params c s.reqs) (agrees_distinct h.nodup) pop₀ s.sys
            (h.reach a4 _ (agrees_params _ _)) a5 hdone
        cases st with
        | true =>
          simp only [if_true, Option.some.injEq] at hs
          subst hs
          exact ⟨h.length, h.idle, h.nodup, h.reach, ⟨g + 1, a3, a1⟩, a4, hdone, hpop⟩
        | false =>
          simp only [Bool.false_eq_true, if_false, Option.some.injEq] at hs
          subst hs
          cases cb with
          | true =>
            simp only [if_true]
            refine ⟨h.length, h.idle, h.nodup, fun hf => reach_stop (h.reach hf), ?_⟩
            by_cases hm : g + 1 = c.maxiter
            · simp only [enter, hm, if_true, stop]; rfl
            · simp only [enter, hm, if_false]
              exact ⟨a1, a4, by omega, hdone, hpop⟩
          | false =>
            simp only [Bool.false_eq_true, if_false]
            refine ⟨h.length, h.idle, h.nodup, h.reach, ?_⟩
            by_cases hm : g + 1 = c.maxiter
            · simp only [enter, hm, if_true, a5]
              exact ⟨⟨c.maxiter, le_rfl, hm ▸ a1⟩, a4, hdone, hpop⟩
            · simp only [enter, hm, if_false]
              exact ⟨a1, a4, by omega, hdone, hpop⟩
      · cases hs
    | _ => simp [hstg] at hs

theorem rinv_start (c : Cfg I) (pop₀ : ℕ → I) : RInv c pop₀ (start pop₀) :=
  ⟨rfl, fun _ _ => rfl, by simp [start], fun _ _ _ => ⟨[], rfl⟩, rfl, rfl, rfl⟩

/-- Induction over an execution. -/
theorem rrun_induction {c : Cfg I} (M : RS I → Prop) (hstep : ∀ s a s', M s → step c s a = some s' → M s')
    (acts : List RAct) (s s' : RS I) (hs : M s) (h : run c s acts = some s') : M s' := by
  induction acts generalizing s with
  | nil => simp only [run, Option.some.injEq] at h; subst h; exact hs
  | cons a as ih =>
    simp only [run] at h
    cases ha : step c s a with
    | none => simp [ha] at h
    | some t => simp only [ha] at h; exact ih t (hstep s a t hs ha) h

theorem rinv_run {c : Cfg I} (hd : c.Distinct) {pop₀ : ℕ → I} {acts : List RAct} {s : RS I}
    (h : run c (start pop₀) acts = some s) : RInv c pop₀ s :=
  rrun_induction (RInv c pop₀) (fun _ _ _ hs hst => rinv_step hd hs hst) acts _ _ (rinv_start c pop₀) h

end RunSystem
end Ade
