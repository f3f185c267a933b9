import Verif.Lemmas.RunSystem
import Verif.Lemmas.Population
import Verif.Props.Sampler

/-!
# Properties C110, C111: a whole run with its generations

All theorems quantify over every population, every way of choosing four different indices from the state at the moment
of choice, every trial function, and every interleaving.
-/

set_option autoImplicit false

namespace Ade
namespace RunSystem

open DESystem

variable {I : Type}

/-! ## C111 -/

/-- C111: when a challenge is issued, every challenge of an earlier generation has returned. -/
theorem C111_no_overlap (c : Cfg I) (hd : c.Distinct) (pop₀ : ℕ → I) (acts : List RAct) (s s' : RS I)
    (h : run c (start pop₀) acts = some s) (hs : step c s .issue = some s') (j : ℕ)
    (hj : j / c.Np < s.sys.issued / c.Np) : s.sys.phase j = .done := by
  have hinv := rinv_run hd h
  have hS := hinv.stage
  unfold step at hs
  cases hst : s.stage with
  | issuing g kt =>
    rw [hst] at hS
    obtain ⟨a1, a2, a3, -, -, a6⟩ := hS
    apply a6
    have hN : 0 < c.Np := by omega
    have : s.sys.issued / c.Np = g := by
      rw [a2, Nat.mul_comm, Nat.mul_add_div hN, Nat.div_eq_of_lt a1, Nat.add_zero]
    rw [this] at hj
    rw [a3]
    exact (Nat.div_lt_iff_lt_mul hN).1 hj
  | _ => simp [hst] at hs

/-- The challenge that is made when `q` is the population. -/
def chosen (c : Cfg I) (n : ℕ) (q : ℕ → I) : Req I :=
  ⟨n % c.Np, (c.pick n (n % c.Np) q).kb, (c.pick n (n % c.Np) q).k0, (c.pick n (n % c.Np) q).k1,
    (c.pick n (n % c.Np) q).trial⟩

/-- What an act does to the challenges made. -/
theorem step_reqs {c : Cfg I} {pop₀ : ℕ → I} {s s' : RS I} {a : RAct} (h : RInv c pop₀ s)
    (hs : step c s a = some s') :
    (a ≠ .issue ∧ s'.reqs = s.reqs) ∨ (a = .issue ∧ s'.reqs = s.reqs ++ [chosen c s.sys.issued s.sys.pop]) := by
  have hset : ∀ t : RS I, (settle t).reqs = t.reqs := by
    intro t; unfold settle; split
    · split <;> rfl
    · split <;> rfl
    · rfl
  have hch : ∀ b, challengeStep c s b = some s' → s'.reqs = s.reqs := by
    intro b hb
    unfold challengeStep at hb
    split at hb
    · cases hb
    · injection hb with hb; subst hb; rw [hset]
  cases a with
  | issue =>
    right
    refine ⟨rfl, ?_⟩
    have hS := h.stage
    unfold step at hs
    cases hst : s.stage with
    | issuing g kt =>
      rw [hst] at hS
      obtain ⟨a1, a2, -⟩ := hS
      have : s.sys.issued % c.Np = kt := by
        rw [a2, Nat.mul_comm, Nat.mul_add_mod, Nat.mod_eq_of_lt a1]
      simp only [hst] at hs
      split at hs
      · cases hs
      · injection hs with hs; subst hs
        rw [hset]
        simp [nextTarget, chosen, this]
    | _ => simp [hst] at hs
  | grant j => exact .inl ⟨by simp, hch _ hs⟩
  | finish j => exact .inl ⟨by simp, hch _ hs⟩
  | recorded j =>
    simp only [step] at hs
    split at hs
    · cases hs
    · exact .inl ⟨by simp, hch _ hs⟩
  | fails j =>
    simp only [step] at hs
    split at hs
    · cases hs
    · split at hs
      · injection hs with hs; subst hs; exact .inl ⟨by simp, hset _⟩
      · cases hs
  | blocks => simp only [step] at hs; injection hs with hs; subst hs; exact .inl ⟨by simp, rfl⟩
  | shutdown => simp only [step] at hs; injection hs with hs; subst hs; exact .inl ⟨by simp, hset _⟩
  | reported =>
    simp only [step] at hs
    refine .inl ⟨by simp, ?_⟩
    split at hs
    · cases hs
    · split at hs
      · injection hs with hs; subst hs; rfl
      · split at hs <;> (injection hs with hs; subst hs; rfl)
      · injection hs with hs; subst hs; rfl
      · cases hs
  | collect st cb =>
    simp only [step] at hs
    refine .inl ⟨by simp, ?_⟩
    split at hs
    · split at hs
      · split at hs
        · injection hs with hs; subst hs; rfl
        · injection hs with hs; subst hs; simp only [enter]; split <;> rfl
      · cases hs
    · cases hs

theorem run_append {c : Cfg I} {s s' : RS I} {as bs : List RAct} :
    run c s (as ++ bs) = some s' ↔ ∃ t, run c s as = some t ∧ run c t bs = some s' := by
  induction as generalizing s with
  | nil => simp [run]
  | cons a as ih =>
    simp only [List.cons_append, run]
    cases step c s a with
    | none => simp
    | some t => exact ih

theorem run_single {c : Cfg I} {s s' : RS I} {a : RAct} : run c s [a] = some s' ↔ step c s a = some s' := by
  simp only [run]
  cases step c s a <;> simp

/-- C111: each generation challenges the members one after the other, each once: the `n`-th challenge of the run has
the target `n % Np`, and its other indices are those chosen from the population as it was when it was issued. -/
theorem C111_targets (c : Cfg I) (hd : c.Distinct) (pop₀ : ℕ → I) (acts : List RAct) (s : RS I)
    (h : run c (start pop₀) acts = some s) (n : ℕ) (r : Req I) (hr : s.reqs[n]? = some r) :
    r.kt = n % c.Np ∧ ∃ acts₁ acts₂ t, acts = acts₁ ++ .issue :: acts₂ ∧ run c (start pop₀) acts₁ = some t ∧
      t.sys.issued = n ∧ r.kb = (c.pick n r.kt t.sys.pop).kb ∧ r.k0 = (c.pick n r.kt t.sys.pop).k0 ∧
      r.k1 = (c.pick n r.kt t.sys.pop).k1 ∧ r.trial = (c.pick n r.kt t.sys.pop).trial := by
  induction acts using List.reverseRecOn generalizing s with
  | nil => simp only [run, Option.some.injEq] at h; subst h; simp [start] at hr
  | append_singleton acts a ih =>
    obtain ⟨t, ht, hta⟩ := run_append.1 h
    rw [run_single] at hta
    have hinv := rinv_run hd ht
    have old : t.reqs[n]? = some r → r.kt = n % c.Np ∧ ∃ acts₁ acts₂ t, acts ++ [a] = acts₁ ++ .issue :: acts₂ ∧
        run c (start pop₀) acts₁ = some t ∧ t.sys.issued = n ∧ r.kb = (c.pick n r.kt t.sys.pop).kb ∧
        r.k0 = (c.pick n r.kt t.sys.pop).k0 ∧ r.k1 = (c.pick n r.kt t.sys.pop).k1 ∧
        r.trial = (c.pick n r.kt t.sys.pop).trial := by
      intro hr'
      obtain ⟨h1, acts₁, acts₂, u, h2, h3⟩ := ih t ht hr'
      exact ⟨h1, acts₁, acts₂ ++ [a], u, by rw [h2]; simp, h3⟩
    rcases step_reqs hinv hta with ⟨-, e⟩ | ⟨ea, e⟩
    · rw [e] at hr; exact old hr
    · rw [e] at hr
      by_cases hn : n < t.reqs.length
      · rw [List.getElem?_append_left hn] at hr; exact old hr
      · rw [List.getElem?_append_right (Nat.le_of_not_lt hn)] at hr
        have hn' : n = t.sys.issued := by
          have := (List.getElem?_eq_some_iff.1 hr).1
          simp only [List.length_singleton] at this
          rw [← hinv.length]; omega
        rw [← hinv.length] at hn'
        subst hn'
        simp only [Nat.sub_self, List.getElem?_cons_zero, Option.some.injEq] at hr
        rw [← hinv.length] at hr
        subst hr
        exact ⟨rfl, acts, [], t, by rw [ea], ht, hinv.length.symm, rfl, rfl, rfl, rfl⟩

/-- The moments between generations: the run waits for reports at the beginning of a generation or at the end, or it
has ended after the final report. -/
def Stage.isBoundary : Stage → Bool
  | .reports _ => true
  | .closing => true
  | .ended true => true
  | _ => false

theorem boundary_inv {c : Cfg I} {pop₀ : ℕ → I} {s : RS I} (h : RInv c pop₀ s) (hb : s.stage.isBoundary = true) :
    (∃ g, g ≤ c.maxiter ∧ s.sys.issued = g * c.Np) ∧ s.failed = false ∧ AllDone s.sys ∧
      s.sys.pop = Sequential.popAfter c.lt (params c s.reqs).req pop₀ s.sys.issued := by
  have hS := h.stage
  cases hst : s.stage with
  | reports g =>
    rw [hst] at hS; exact ⟨⟨g, Nat.le_of_lt hS.2.2.1, hS.1⟩, hS.2.1, hS.2.2.2.1, hS.2.2.2.2⟩
  | closing => rw [hst] at hS; exact hS
  | ended b =>
    rw [hst] at hb hS
    cases b with
    | true => exact ⟨hS.1, hS.2.1, hS.2.2.1, hS.2.2.2.2⟩
    | false => cases hb
  | _ => rw [hst] at hb; cases hb

/-- C111: between generations nothing is in progress: the number of challenges made is a multiple of the population
size, all of them have returned, and no lock is held or waited for. -/
theorem C111_between_generations (c : Cfg I) (hd : c.Distinct) (pop₀ : ℕ → I) (acts : List RAct) (s : RS I)
    (h : run c (start pop₀) acts = some s) (hb : s.stage.isBoundary = true) :
    (∃ g, g ≤ c.maxiter ∧ s.sys.issued = g * c.Np) ∧ (∀ j, j < s.sys.issued → s.sys.phase j = .done) ∧
      ∀ k, s.sys.queue k = [] := by
  have hinv := rinv_run hd h
  obtain ⟨h1, h2, h3, -⟩ := boundary_inv hinv hb
  refine ⟨h1, h3, ?_⟩
  intro k
  have hI := (inv_reachable (agrees_distinct hinv.nodup) (hinv.reach h2 _ (agrees_params _ _))).1
  cases hq : s.sys.queue k with
  | nil => rfl
  | cons j l =>
    exfalso
    have hkind : s.sys.kind j = .idle ∨ s.sys.kind j = .done := by
      by_cases hj : j < s.sys.issued
      · right; simp [Sys.kind, h3 j hj, Phase.kind]
      · left; simp [Sys.kind, hinv.idle j (Nat.le_of_not_lt hj), Phase.kind]
    rcases hI.member k j (by rw [hq]; simp) with ⟨h, -⟩ | ⟨h, -⟩ <;> rw [h] at hkind <;> simp at hkind

/-- Acts by which the run itself goes on. -/
def RAct.goesOn : RAct → Bool
  | .fails _ => false
  | .blocks => false
  | .shutdown => false
  | _ => true

/-- C111: as long as the lock of the history was not left acquired, a run that has not ended can go on. -/
theorem C111_goes_on_partial (c : Cfg I) (hd : c.Distinct) (pop₀ : ℕ → I) (acts : List RAct) (s : RS I)
    (h : run c (start pop₀) acts = some s) (hne : ∀ b, s.stage ≠ .ended b) (hb : s.blocked = false) :
    ∃ a s', a.goesOn = true ∧ step c s a = some s' := by
  have hinv := rinv_run hd h
  have hS := hinv.stage
  cases hst : s.stage with
  | opening => exact ⟨.reported, enter c s 0, rfl, by simp [step, hb, hst]⟩
  | reports g =>
    refine ⟨.reported, ?_⟩
    by_cases hr : s.sys.running = true
    · exact ⟨_, rfl, by simp only [step, hb, hst, hr]; rfl⟩
    · exact ⟨{ s with stage := .ended false }, rfl, by simp [step, hb, hst, hr]⟩
  | closing => exact ⟨.reported, _, rfl, by simp [step, hb, hst]; rfl⟩
  | ended b => exact absurd hst (hne b)
  | issuing g kt =>
    rw [hst] at hS
    refine ⟨.issue, ?_⟩
    simp only [step, hst, DESystem.step, hS.2.2.2.2.1]
    exact ⟨_, rfl, rfl⟩
  | waiting g =>
    rw [hst] at hS
    obtain ⟨a1, a2, -, a4, a5, a6⟩ := hS
    by_cases hall : AllDone s.sys
    · refine ⟨.collect true false, ?_⟩
      have : ((List.range (s.sys.issued - s.first)).all fun i => isDone (s.sys.phase (s.first + i))) = true := by
        rw [List.all_eq_true]
        intro i hi
        rw [hall _ (by simp at hi; omega)]; rfl
      simp only [step, hst, this]
      exact ⟨_, rfl, rfl⟩
    · unfold AllDone at hall
      push Not at hall
      obtain ⟨j, hj, hnd⟩ := hall
      have hI := (inv_reachable (agrees_distinct hinv.nodup) (hinv.reach a4 _ (agrees_params _ _))).1
      obtain ⟨a, t, ha, hat⟩ := progress_of_inv hI j hj hnd
      cases a with
      | issue => cases ha
      | shutdown => cases ha
      | grant i => exact ⟨.grant i, _, rfl, by simp only [step, challengeStep, hat]; rfl⟩
      | finish i => exact ⟨.finish i, _, rfl, by simp only [step, challengeStep, hat]; rfl⟩
      | recorded i =>
        exact ⟨.recorded i, _, rfl, by simp only [step, challengeStep, hat, hb]; rfl⟩

/-- Acts left for the loop, not counting those of the challenges issued. -/
def pot (c : Cfg I) : Stage → ℕ
  | .opening => c.maxiter * (4 * c.Np + 2) + 2
  | .reports g => (c.maxiter - g) * (4 * c.Np + 2) + 1
  | .issuing g kt => (c.maxiter - (g + 1)) * (4 * c.Np + 2) + 2 + 4 * (c.Np - kt)
  | .waiting g => (c.maxiter - (g + 1)) * (4 * c.Np + 2) + 2
  | .closing => 1
  | .ended _ => 0

/-- Acts left. -/
def left (c : Cfg I) (s : RS I) : ℕ := pot c s.stage + total s.sys.phase s.sys.issued

theorem left_settle (c : Cfg I) (s : RS I) : left c (settle s) ≤ left c s := by
  unfold settle left
  split
  · split
    · exact le_rfl
    · simp only [pot]; omega
  · split
    · exact le_rfl
    · simp only [pot, stop]; omega
  · exact le_rfl

theorem left_challenge {c : Cfg I} {pop₀ : ℕ → I} {s s' : RS I} {a : Act} (h : RInv c pop₀ s)
    (ha : a.isProgress = true) (hs : challengeStep c s a = some s') : 1 + left c s' ≤ left c s := by
  unfold challengeStep at hs
  cases hst : DESystem.step (params c s.reqs) s.sys a with
  | none => rw [hst] at hs; cases hs
  | some t =>
    rw [hst] at hs
    injection hs with hs
    subst hs
    have h1 := left_settle c { s with sys := t }
    have h2 := step_count_of_idle (fun j hj => by
      by_contra hc; exact hj (h.idle j (Nat.le_of_not_lt hc))) hst
    rw [if_pos ha, (progress_keeps ha hst).1] at h2
    simp only [left] at h1 ⊢
    rw [(progress_keeps ha hst).1] at h1
    omega

theorem left_step {c : Cfg I} {pop₀ : ℕ → I} {s s' : RS I} {a : RAct} (h : RInv c pop₀ s)
    (hs : step c s a = some s') : (if a.goesOn then 1 else 0) + left c s' ≤ left c s := by
  have hS := h.stage
  have hmul : ∀ g, g < c.maxiter → (c.maxiter - g) * (4 * c.Np + 2) =
      (c.maxiter - (g + 1)) * (4 * c.Np + 2) + (4 * c.Np + 2) := by
    intro g hg
    rw [show c.maxiter - g = (c.maxiter - (g + 1)) + 1 by omega, Nat.succ_mul]
  cases a with
  | grant j => exact left_challenge h rfl hs
  | finish j => exact left_challenge h rfl hs
  | recorded j =>
    simp only [step] at hs
    split at hs
    · cases hs
    · exact left_challenge h rfl hs
  | fails j =>
    simp only [step] at hs
    split at hs
    · cases hs
    · split at hs
      · rename_i hp
        injection hs with hs; subst hs
        refine (Nat.zero_add _).le.trans ((left_settle c _).trans ?_)
        have hj : j < s.sys.issued := by
          by_contra hc; have := h.idle j (Nat.le_of_not_lt hc); rw [hp] at this; cases this
        have := total_update_lt s.sys.phase j .done s.sys.issued hj
        simp only [left, Phase.rank] at this ⊢
        omega
      · cases hs
  | blocks => simp only [step] at hs; injection hs with hs; subst hs; simp [RAct.goesOn, left]
  | shutdown =>
    simp only [step] at hs; injection hs with hs; subst hs
    exact (Nat.zero_add _).le.trans ((left_settle c _).trans le_rfl)
  | issue =>
    unfold step at hs
    cases hst : s.stage with
    | issuing g kt =>
      rw [hst] at hS
      obtain ⟨a1, a2, a3, a4, a5, a6⟩ := hS
      simp only [hst, DESystem.step, a5, if_true, Option.some.injEq] at hs
      subst hs
      refine Nat.le_trans (Nat.add_le_add_left (left_settle c _) _) ?_
      simp only [RAct.goesOn, if_true, left, nextTarget, total, Function.update_self, Phase.rank,
        total_update_ge _ _ _ _ (le_refl _), hst]
      split
      · simp only [pot]; omega
      · simp only [pot]; omega
    | _ => simp [hst] at hs
  | reported =>
    simp only [step] at hs
    split at hs
    · cases hs
    · cases hst : s.stage with
      | opening =>
        simp only [hst, Option.some.injEq] at hs
        subst hs
        simp only [RAct.goesOn, if_true, left, enter, hst]
        split
        · split <;> simp only [pot] <;> omega
        · simp only [pot, Nat.sub_zero]; omega
      | reports g =>
        rw [hst] at hS
        simp only [hst] at hs
        have hm := hmul g hS.2.2.1
        split at hs
        · injection hs with hs; subst hs
          simp only [RAct.goesOn, if_true, left, nextTarget, hst]
          split
          · simp only [pot]; omega
          · simp only [pot]; omega
        · injection hs with hs; subst hs
          simp only [RAct.goesOn, if_true, left, pot, hst]; omega
      | closing =>
        simp only [hst, Option.some.injEq] at hs
        subst hs
        simp only [RAct.goesOn, if_true, left, pot, hst, stop]; omega
      | _ => simp [hst] at hs
  | collect st cb =>
    simp only [step] at hs
    cases hst : s.stage with
    | waiting g =>
      simp only [hst] at hs
      split at hs
      · split at hs
        · injection hs with hs; subst hs
          simp only [RAct.goesOn, if_true, left, pot, hst]; omega
        · injection hs with hs; subst hs
          simp only [RAct.goesOn, if_true, left, enter, hst]
          split
          · split <;> (split <;> simp only [pot, stop] <;> omega)
          · split <;> simp only [pot, stop] <;> omega
      · cases hs
    | _ => simp [hst] at hs

/-- C111: no run takes more than `maxiter·(4·Np+2)+2` steps, counting those of the loop and those of the
challenges, so one that can always go on ends. -/
theorem C111_bounded (c : Cfg I) (hd : c.Distinct) (pop₀ : ℕ → I) (acts : List RAct) (s : RS I)
    (h : run c (start pop₀) acts = some s) : acts.countP RAct.goesOn ≤ c.maxiter * (4 * c.Np + 2) + 2 := by
  suffices key : acts.countP RAct.goesOn + left c s ≤ c.maxiter * (4 * c.Np + 2) + 2 by omega
  induction acts using List.reverseRecOn generalizing s with
  | nil => simp only [run, Option.some.injEq] at h; subst h; simp [left, start, pot, total, init]
  | append_singleton acts a ih =>
    obtain ⟨t, ht, hta⟩ := run_append.1 h
    rw [run_single] at hta
    have h1 := ih t ht
    have h2 := left_step (rinv_run hd ht) hta
    rw [List.countP_append, List.countP_singleton]
    omega

/-- Going on does not leave the lock of the history acquired. -/
theorem goesOn_blocked {c : Cfg I} {s s' : RS I} {a : RAct} (ha : a.goesOn = true) (hs : step c s a = some s') :
    s'.blocked = s.blocked := by
  have hset : ∀ t : RS I, (settle t).blocked = t.blocked := by
    intro t; unfold settle; split
    · split <;> rfl
    · split <;> rfl
    · rfl
  have hch : ∀ b, challengeStep c s b = some s' → s'.blocked = s.blocked := by
    intro b hb
    unfold challengeStep at hb
    split at hb
    · cases hb
    · injection hb with hb; subst hb; rw [hset]
  cases a with
  | fails j => cases ha
  | blocks => cases ha
  | shutdown => cases ha
  | grant j => exact hch _ hs
  | finish j => exact hch _ hs
  | recorded j =>
    simp only [step] at hs
    split at hs
    · cases hs
    · exact hch _ hs
  | issue =>
    unfold step at hs
    cases hst : s.stage with
    | issuing g kt =>
      simp only [hst] at hs
      split at hs
      · cases hs
      · injection hs with hs; subst hs; rw [hset]; rfl
    | _ => simp [hst] at hs
  | reported =>
    simp only [step] at hs
    split at hs
    · cases hs
    · split at hs
      · injection hs with hs; subst hs; rfl
      · split at hs <;> (injection hs with hs; subst hs; rfl)
      · injection hs with hs; subst hs; rfl
      · cases hs
  | collect st cb =>
    simp only [step] at hs
    split at hs
    · split at hs
      · split at hs
        · injection hs with hs; subst hs; rfl
        · injection hs with hs; subst hs; simp only [enter]; split <;> rfl
      · cases hs
    · cases hs

/-- C111: a run whose history's lock was not left acquired goes on to its end, whatever has happened before. -/
theorem C111_ends_partial (c : Cfg I) (hd : c.Distinct) (pop₀ : ℕ → I) (acts : List RAct) (s : RS I)
    (h : run c (start pop₀) acts = some s) (hb : s.blocked = false) :
    ∃ more s' b, (∀ a ∈ more, a.goesOn = true) ∧ run c (start pop₀) (acts ++ more) = some s' ∧
      s'.stage = .ended b := by
  suffices key : ∀ (m : ℕ) (acts : List RAct) (s : RS I), run c (start pop₀) acts = some s → s.blocked = false →
      c.maxiter * (4 * c.Np + 2) + 2 - acts.countP RAct.goesOn ≤ m →
      ∃ more s' b, (∀ a ∈ more, a.goesOn = true) ∧ run c (start pop₀) (acts ++ more) = some s' ∧
        s'.stage = .ended b from key _ acts s h hb le_rfl
  intro m
  induction m with
  | zero =>
    intro acts s h hb hm
    by_cases hne : ∃ b, s.stage = .ended b
    · obtain ⟨b, hne⟩ := hne
      exact ⟨[], s, b, by simp, by simpa using h, hne⟩
    · push Not at hne
      obtain ⟨a, s', ha, hs⟩ := C111_goes_on_partial c hd pop₀ acts s h hne hb
      have := C111_bounded c hd pop₀ (acts ++ [a]) s' (run_append.2 ⟨s, h, run_single.2 hs⟩)
      rw [List.countP_append, List.countP_singleton, if_pos ha] at this
      omega
  | succ m ih =>
    intro acts s h hb hm
    by_cases hne : ∃ b, s.stage = .ended b
    · obtain ⟨b, hne⟩ := hne
      exact ⟨[], s, b, by simp, by simpa using h, hne⟩
    · push Not at hne
      obtain ⟨a, s', ha, hs⟩ := C111_goes_on_partial c hd pop₀ acts s h hne hb
      have h' := run_append.2 ⟨s, h, run_single.2 hs⟩
      obtain ⟨more, t, b, h1, h2, h3⟩ := ih (acts ++ [a]) s' h' (by rw [goesOn_blocked ha hs]; exact hb) (by
        rw [List.countP_append, List.countP_singleton, if_pos ha]; omega)
      refine ⟨a :: more, t, b, ?_, by simpa using h2, h3⟩
      intro x hx
      rcases List.mem_cons.1 hx with rfl | hx
      · exact ha
      · exact h1 x hx

/-- C111, negation: once the lock of the history was left acquired by an addition that failed, a run that waits for
reports never goes on, not even if it is shut down. -/
theorem C111_blocked_never_ends (c : Cfg I) (s s' : RS I) (acts : List RAct) (hb : s.blocked = true)
    (hst : s.stage = .opening ∨ s.stage = .closing ∨ ∃ g, s.stage = .reports g)
    (h : run c s acts = some s') : s'.stage = s.stage ∧ s'.blocked = true := by
  have hset : ∀ t : RS I, t.stage = s.stage → t.blocked = true → (settle t).stage = s.stage ∧
      (settle t).blocked = true := by
    intro t h1 h2
    unfold settle
    rcases hst with e | e | ⟨g, e⟩ <;> rw [h1, e] <;> exact ⟨by rw [h1, e], h2⟩
  have hch : ∀ (t t' : RS I) b, t.stage = s.stage → t.blocked = true → challengeStep c t b = some t' →
      t'.stage = s.stage ∧ t'.blocked = true := by
    intro t t' b h1 h2 h3
    unfold challengeStep at h3
    split at h3
    · cases h3
    · injection h3 with h3; subst h3; exact hset _ h1 h2
  refine rrun_induction (c := c) (fun t => t.stage = s.stage ∧ t.blocked = true) ?_ acts s s' ⟨rfl, hb⟩ h
  rintro t a t' ⟨h1, h2⟩ hs
  cases a with
  | grant j => exact hch _ _ _ h1 h2 hs
  | finish j => exact hch _ _ _ h1 h2 hs
  | recorded j => simp [step, h2] at hs
  | fails j => simp [step, h2] at hs
  | reported => simp [step, h2] at hs
  | blocks => simp only [step] at hs; injection hs with hs; subst hs; exact ⟨h1, rfl⟩
  | shutdown => simp only [step] at hs; injection hs with hs; subst hs; exact hset _ h1 h2
  | issue => unfold step at hs; rcases hst with e | e | ⟨g, e⟩ <;> rw [h1, e] at hs <;> cases hs
  | collect st cb => simp only [step] at hs; rcases hst with e | e | ⟨g, e⟩ <;> rw [h1, e] at hs <;> cases hs

/-- C111, negation: after an addition to the history has failed, whoever waited for it, no report is completed any
more and no further addition ends. -/
theorem C111_nothing_reported (c : Cfg I) (s s' : RS I) (a : RAct) (more : List RAct)
    (ha : a = .blocks ∨ ∃ j, a = .fails j) (h : run c s (a :: more) = some s') :
    ∀ b ∈ more, b ≠ .reported ∧ ∀ j, b ≠ .recorded j ∧ b ≠ .fails j := by
  have hset : ∀ t : RS I, (settle t).blocked = t.blocked := by
    intro t; unfold settle; split
    · split <;> rfl
    · split <;> rfl
    · rfl
  obtain ⟨t, ht, hm⟩ := run_append.1 (show run c s ([a] ++ more) = some s' from h)
  rw [run_single] at ht
  have hb : t.blocked = true := by
    rcases ha with rfl | ⟨j, rfl⟩
    · simp only [step] at ht; injection ht with ht; subst ht; rfl
    · simp only [step] at ht
      split at ht
      · cases ht
      · split at ht
        · injection ht with ht; subst ht; rw [hset]
        · cases ht
  clear ht h
  induction more generalizing t with
  | nil => intro b hbm; cases hbm
  | cons b more ih =>
    obtain ⟨u, hu, hm'⟩ := run_append.1 (show run c t ([b] ++ more) = some s' from hm)
    rw [run_single] at hu
    have hn : b ≠ .reported ∧ ∀ j, b ≠ .recorded j ∧ b ≠ .fails j := by
      refine ⟨?_, fun j => ⟨?_, ?_⟩⟩ <;> (rintro rfl; simp [step, hb] at hu)
    have hub : u.blocked = true := by
      cases b with
      | blocks => simp only [step] at hu; injection hu with hu; subst hu; rfl
      | shutdown => simp only [step] at hu; injection hu with hu; subst hu; rw [hset]; exact hb
      | fails j => exact absurd rfl (hn.2 j).2
      | recorded j => exact absurd rfl (hn.2 j).1
      | reported => exact absurd rfl hn.1
      | issue => rw [goesOn_blocked rfl hu]; exact hb
      | grant j => rw [goesOn_blocked rfl hu]; exact hb
      | finish j => rw [goesOn_blocked rfl hu]; exact hb
      | collect x y => rw [goesOn_blocked rfl hu]; exact hb
    intro d hd
    rcases List.mem_cons.1 hd with rfl | hd
    · exact hn
    · exact ih u hm' hub d hd

/-- C111: `shutdown` ends a run at once when it is issuing challenges or waiting for them. -/
theorem C111_shutdown_ends (c : Cfg I) (s : RS I) (h : (∃ g kt, s.stage = .issuing g kt) ∨ ∃ g, s.stage = .waiting g) :
    ∃ s', step c s .shutdown = some s' ∧ s'.stage = .ended false ∧ s'.sys.running = false := by
  refine ⟨_, rfl, ?_⟩
  unfold settle
  rcases h with ⟨g, kt, e⟩ | ⟨g, e⟩ <;> simp [e, stop]

/-- C111: an addition to the history that fails while a challenge waits for it ends the run, at once when the run is
waiting for challenges. -/
theorem C111_failure_ends (c : Cfg I) (s s' : RS I) (j : ℕ) (hw : ∃ g, s.stage = .waiting g)
    (hs : step c s (.fails j) = some s') : s'.stage = .ended false ∧ s'.sys.running = false := by
  obtain ⟨g, e⟩ := hw
  simp only [step] at hs
  split at hs
  · cases hs
  · split at hs
    · injection hs with hs; subst hs
      simp [settle, e, stop]
    · cases hs

/-- C111: after the end of a run no challenge is issued and no member changes. -/
theorem C111_nothing_after_end (c : Cfg I) (hd : c.Distinct) (pop₀ : ℕ → I) (acts more : List RAct) (s s' : RS I) (b : Bool)
    (h : run c (start pop₀) acts = some s) (he : s.stage = .ended b) (h' : run c s more = some s') :
    s'.stage = .ended b ∧ s'.sys.pop = s.sys.pop ∧ s'.sys.issued = s.sys.issued := by
  have hrun : s.sys.running = false := by
    have hS := (rinv_run hd h).stage
    rw [he] at hS
    cases b with
    | true => exact hS.2.2.2.1
    | false => exact hS
  have hset : ∀ t : RS I, t.stage = .ended b → settle t = t := by
    intro t h1; unfold settle; rw [h1]
  have hch : ∀ (t t' : RS I) a, a.isProgress = true → t.stage = .ended b → t.sys.running = false →
      challengeStep c t a = some t' → t'.stage = .ended b ∧ t'.sys.running = false ∧ t'.sys.pop = t.sys.pop ∧
      t'.sys.issued = t.sys.issued := by
    intro t t' a ha h1 h2 h3
    unfold challengeStep at h3
    split at h3
    · cases h3
    · rename_i u hu
      injection h3 with h3; subst h3
      rw [hset { t with sys := u } h1]
      exact ⟨h1, (progress_keeps ha hu).2.1 h2, (C35_frozen _ _ _ _ h2 hu).1, (progress_keeps ha hu).1⟩
  have key := rrun_induction (c := c) (fun t => t.stage = .ended b ∧ t.sys.running = false ∧ t.sys.pop = s.sys.pop ∧
    t.sys.issued = s.sys.issued) ?_ more s s' ⟨he, hrun, rfl, rfl⟩ h'
  · exact ⟨key.1, key.2.2⟩
  rintro t a t' ⟨h1, h2, h3, h4⟩ hs
  have hch' : ∀ a, a.isProgress = true → challengeStep c t a = some t' → t'.stage = .ended b ∧
      t'.sys.running = false ∧ t'.sys.pop = s.sys.pop ∧ t'.sys.issued = s.sys.issued := by
    intro a ha hh
    obtain ⟨k1, k2, k3, k4⟩ := hch t t' a ha h1 h2 hh
    exact ⟨k1, k2, k3.trans h3, k4.trans h4⟩
  cases a with
  | grant j => exact hch' _ rfl hs
  | finish j => exact hch' _ rfl hs
  | recorded j =>
    simp only [step] at hs
    split at hs
    · cases hs
    · exact hch' _ rfl hs
  | fails j =>
    simp only [step] at hs
    split at hs
    · cases hs
    · split at hs
      · injection hs with hs; subst hs
        rw [show settle _ = _ from hset _ (by exact h1)]; exact ⟨h1, h2, h3, h4⟩
      · cases hs
  | reported => simp [step, h1] at hs
  | blocks => simp only [step] at hs; injection hs with hs; subst hs; exact ⟨h1, h2, h3, h4⟩
  | shutdown =>
    simp only [step] at hs; injection hs with hs; subst hs
    rw [show settle _ = _ from hset _ (by exact h1)]; exact ⟨h1, rfl, h3, h4⟩
  | issue => simp [step, h1] at hs
  | collect st cb => simp [step, h1] at hs

/-! ## C110 -/

/-- The same algorithm with a blocking evaluator: each challenge is chosen, carried out and ended before the next one
is chosen. -/
def blocking (c : Cfg I) (pop₀ : ℕ → I) : ℕ → (ℕ → I)
  | 0 => pop₀
  | n + 1 => Sequential.challenge c.lt (blocking c pop₀ n) (chosen c n (blocking c pop₀ n))

theorem popAfter_blocking {c : Cfg I} {pop₀ : ℕ → I} {req : ℕ → Req I} (n : ℕ)
    (h : ∀ m, m < n → req m = chosen c m (blocking c pop₀ m)) :
    Sequential.popAfter c.lt req pop₀ n = blocking c pop₀ n := by
  induction n with
  | zero => rfl
  | succ n ih => simp only [Sequential.popAfter, blocking, ih (fun m hm => h m (by omega)), h n (by omega)]

theorem params_req {c : Cfg I} {reqs : List (Req I)} {n : ℕ} (hn : n < reqs.length) :
    (params c reqs).req n = reqs[n] := (agrees_params c reqs).req n reqs[n] (by simp [hn])

/-- C110, what does hold: if the choices do not depend on the population (as they do in the program, which draws from
the members in order of their scores, see `C110_best_differs`), then between generations the population is that of a
blocking run with the same choices, whatever the interleaving was. -/
theorem C110_same_choices_partial (c : Cfg I) (hd : c.Distinct)
    (hind : ∀ n kt q q', c.pick n kt q = c.pick n kt q') (pop₀ : ℕ → I) (acts : List RAct) (s : RS I)
    (h : run c (start pop₀) acts = some s) (hb : s.stage.isBoundary = true) :
    s.sys.pop = blocking c pop₀ s.sys.issued := by
  have hinv := rinv_run hd h
  obtain ⟨-, -, -, h4⟩ := boundary_inv hinv hb
  rw [h4]
  apply popAfter_blocking
  intro m hm
  rw [← hinv.length] at hm
  rw [params_req hm]
  obtain ⟨h1, _, _, t, -, -, -, h2, h3, h5, h6⟩ := C111_targets c hd pop₀ acts s h m s.reqs[m] (by simp [hm])
  rw [h1, hind m _ t.sys.pop (blocking c pop₀ m)] at h2 h3 h5 h6
  cases hr : s.reqs[m] with
  | mk kt kb k0 k1 trial =>
    rw [hr] at h1 h2 h3 h5 h6
    simp only at h1 h2 h3 h5 h6
    simp [chosen, h1, h2, h3, h5, h6]

/-- A failed run stays failed. -/
theorem failed_mono {c : Cfg I} {s s' : RS I} {a : RAct} (hs : step c s a = some s') (hf : s.failed = true) :
    s'.failed = true := by
  have hset : ∀ t : RS I, (settle t).failed = t.failed := by
    intro t; unfold settle; split
    · split <;> rfl
    · split <;> rfl
    · rfl
  have hch : ∀ b, challengeStep c s b = some s' → s'.failed = true := by
    intro b hb
    unfold challengeStep at hb
    split at hb
    · cases hb
    · injection hb with hb; subst hb; rw [hset]; exact hf
  cases a with
  | grant j => exact hch _ hs
  | finish j => exact hch _ hs
  | recorded j =>
    simp only [step] at hs
    split at hs
    · cases hs
    · exact hch _ hs
  | fails j =>
    simp only [step] at hs
    split at hs
    · cases hs
    · split at hs
      · injection hs with hs; subst hs; rw [hset]
      · cases hs
  | blocks => simp only [step] at hs; injection hs with hs; subst hs; exact hf
  | shutdown => simp only [step] at hs; injection hs with hs; subst hs; rw [hset]; exact hf
  | issue =>
    unfold step at hs
    cases hst : s.stage with
    | issuing g kt =>
      simp only [hst] at hs
      split at hs
      · cases hs
      · injection hs with hs; subst hs; rw [hset]; exact hf
    | _ => simp [hst] at hs
  | reported =>
    simp only [step] at hs
    split at hs
    · cases hs
    · split at hs
      · injection hs with hs; subst hs; exact hf
      · split at hs <;> (injection hs with hs; subst hs; exact hf)
      · injection hs with hs; subst hs; exact hf
      · cases hs
  | collect st cb =>
    simp only [step] at hs
    split at hs
    · split at hs
      · split at hs
        · injection hs with hs; subst hs; exact hf
        · injection hs with hs; subst hs; simp only [enter]; split <;> exact hf
      · cases hs
    · cases hs

/-- C110, what does hold: if each challenge is issued only when all earlier ones have returned (as with a blocking
evaluator), then between generations the population is that of a blocking run, whatever the way of choosing. -/
theorem C110_one_at_a_time_partial (c : Cfg I) (hd : c.Distinct) (pop₀ : ℕ → I) (acts : List RAct) (s : RS I)
    (h : run c (start pop₀) acts = some s) (hb : s.stage.isBoundary = true)
    (hone : ∀ acts₁ acts₂ t, acts = acts₁ ++ .issue :: acts₂ → run c (start pop₀) acts₁ = some t →
      ∀ j, j < t.sys.issued → t.sys.phase j = .done) :
    s.sys.pop = blocking c pop₀ s.sys.issued := by
  have hinv := rinv_run hd h
  obtain ⟨-, h2, -, h4⟩ := boundary_inv hinv hb
  rw [h4]
  apply popAfter_blocking
  suffices key : s.failed = false → ∀ m (hm : m < s.reqs.length), s.reqs[m] = chosen c m (blocking c pop₀ m) by
    intro m hm
    rw [← hinv.length] at hm
    rw [params_req hm]
    exact key h2 m hm
  clear h4 h2 hinv hb
  induction acts using List.reverseRecOn generalizing s with
  | nil =>
    simp only [run, Option.some.injEq] at h; subst h
    intro _ m hm
    simp [start] at hm
  | append_singleton acts a ih =>
    intro hf m hm
    obtain ⟨t, ht, hta⟩ := run_append.1 h
    rw [run_single] at hta
    have hinv := rinv_run hd ht
    have htf : t.failed = false := by
      by_contra hc
      rw [failed_mono hta (by simpa using hc)] at hf
      cases hf
    have ih' := ih t ht (fun acts₁ acts₂ u e => hone acts₁ (acts₂ ++ [a]) u (by rw [e]; simp)) htf
    rcases step_reqs hinv hta with ⟨-, e⟩ | ⟨ea, e⟩
    · simp only [e] at hm ⊢
      exact ih' m hm
    · simp only [e] at hm ⊢
      by_cases hn : m < t.reqs.length
      · rw [List.getElem_append_left hn]; exact ih' m hn
      · have hm' : m = t.reqs.length := by simp at hm; omega
        subst hm'
        rw [List.getElem_append_right le_rfl]
        simp only [Nat.sub_self, List.getElem_cons_zero]
        have hall := hone acts [] t (by rw [ea]) ht
        have hrun : t.sys.running = true := by
          rw [ea] at hta
          have hS := hinv.stage
          unfold step at hta
          cases hst : t.stage with
          | issuing g kt => rw [hst] at hS; exact hS.2.2.2.2.1
          | _ => simp [hst] at hta
        have hpop := C28_async_eq_sequential (params c t.reqs) (agrees_distinct hinv.nodup) pop₀ t.sys
          (hinv.reach htf _ (agrees_params _ _)) hrun hall
        have hpop' : t.sys.pop = blocking c pop₀ t.sys.issued := by
          rw [hpop]
          apply popAfter_blocking
          intro k hk
          rw [← hinv.length] at hk
          rw [params_req hk]
          exact ih' k hk
        rw [hpop', hinv.length]

/-- Twenty numbers, each being its own score, in order. -/
def exRank (q : ℕ → ℕ) : List ℕ := Population.stableSort ((List.range 20).map fun k => .fin (q k))

/-- The base for the target `kt`: the best of the others. -/
def exBase (KS : List ℕ) (kt : ℕ) : ℕ := (Sampler.candidates KS [kt]).headD 0

/-- The best of the others is the base, and the two best of the rest are the two others.  A challenger is better than
its target if the latter is 11, and otherwise one more than the base. -/
def exPick (KS : List ℕ) (kt : ℕ) : Pick ℕ :=
  ⟨exBase KS kt, (Sampler.candidates KS [kt, exBase KS kt]).getD 0 0,
    (Sampler.candidates KS [kt, exBase KS kt]).getD 1 0,
    fun t b _ _ => .evaluated (if t = 11 then 3 else b + 1)⟩

/-- A run of two generations with best base and `xSSE`. -/
def exBest : Cfg ℕ := ⟨20, 2, fun a b => decide (a < b), true, fun _ kt q => exPick (exRank q) kt⟩

theorem exRank_ranking (q : ℕ → ℕ) : IsRanking ((List.range 20).map fun k => .fin (q k)) (exRank q) :=
  Population.stableSort_sorts _

theorem exRank_perm (q : ℕ → ℕ) : (exRank q).Perm (List.range 20) := by
  have := (exRank_ranking q).perm
  simpa using this

theorem exBase_program (KS : List ℕ) (hKS : KS.Perm (List.range 20)) (kt : ℕ) :
    Sampler.ValidPositions [0] (Sampler.candidates KS [kt]).length 1 ∧
    Sampler.chooseBase KS .falsy kt [0] [] = .value [exBase KS kt] ∧
    ∀ kb, Sampler.ValidPositions [0, 1] (Sampler.candidates KS [kt, kb]).length 2 ∧
      Sampler.chooseOthers KS kt kb [0, 1] =
        .value [(Sampler.candidates KS [kt, kb]).getD 0 0, (Sampler.candidates KS [kt, kb]).getD 1 0] := by
  have hlen : ∀ ex : List ℕ, (20 : ℕ) ≤ (Sampler.candidates KS ex).length + ex.length := by
    intro ex
    have h1 : (List.range 20).toFinset ⊆ (Sampler.candidates KS ex).toFinset ∪ ex.toFinset := by
      intro k hk
      rw [List.mem_toFinset, ← hKS.mem_iff] at hk
      by_cases hx : k ∈ ex <;> simp_all [Sampler.candidates]
    have h2 := (Finset.card_le_card h1).trans (Finset.card_union_le _ _)
    have h3 := List.toFinset_card_le (Sampler.candidates KS ex)
    have h4 := List.toFinset_card_le ex
    rw [List.toFinset_card_of_nodup List.nodup_range, List.length_range] at h2
    omega
  refine ⟨⟨by simp, ?_, rfl⟩, ?_, ?_⟩
  · have := hlen [kt]
    simp only [List.length_singleton] at this
    intro x hx
    simp at hx
    omega
  · have h1 := hlen [kt]
    unfold exBase Sampler.chooseBase
    simp only [Sampler.sample]
    cases KS with
    | nil => simp [Sampler.candidates] at h1
    | cons k K =>
      by_cases hk : k = kt
      · simp only [List.head?_cons, hk, if_true]
        cases hc : Sampler.candidates (kt :: K) [kt] with
        | nil => rw [hk, hc] at h1; simp at h1
        | cons x xs => simp
      · simp [hk, Sampler.candidates]
  · intro kb
    have h2 := hlen [kt, kb]
    simp only [List.length_cons, List.length_nil] at h2
    refine ⟨⟨by simp, ?_, rfl⟩, ?_⟩
    · intro x hx
      simp at hx
      omega
    · unfold Sampler.chooseOthers Sampler.sample Sampler.randomSample
      cases hc : Sampler.candidates KS [kt, kb] with
      | nil => rw [hc] at h2; simp at h2
      | cons a l =>
        cases l with
        | nil => rw [hc] at h2; simp at h2
        | cons b l => simp

theorem exPick_distinct (KS : List ℕ) (hKS : KS.Perm (List.range 20)) (kt : ℕ) (hkt : kt < 20) :
    [kt, (exPick KS kt).kb, (exPick KS kt).k0, (exPick KS kt).k1].Nodup := by
  obtain ⟨h0, h1, h2⟩ := exBase_program KS hKS kt
  obtain ⟨h3, h4⟩ := h2 (exBase KS kt)
  obtain ⟨k0, k1, e, hnd, -⟩ := Sampler.C25_four_distinct 20 KS hKS kt hkt .falsy [0] [0, 1] []
    (exBase KS kt) h0 h3 _ h1 h4
  injection e with e1 e2
  injection e2 with e2
  rw [← e1, ← e2] at hnd
  exact hnd

theorem exBest_distinct : exBest.Distinct := fun _ kt q hkt => exPick_distinct _ (exRank_perm q) kt hkt

theorem exPick_program (KS : List ℕ) (hKS : KS.Perm (List.range 20)) (kt : ℕ) :
    Sampler.chooseBase KS .falsy kt [0] [] = .value [(exPick KS kt).kb] ∧
    Sampler.chooseOthers KS kt (exPick KS kt).kb [0, 1] = .value [(exPick KS kt).k0, (exPick KS kt).k1] :=
  ⟨(exBase_program KS hKS kt).2.1, ((exBase_program KS hKS kt).2.2 _).2⟩

/-- All twenty challenges of the first generation are issued, then they are carried out one after the other. -/
def exActs : List RAct :=
  [.reported, .reported] ++ List.replicate 20 .issue ++
    (List.range 20).flatMap (fun j => [.grant j, .finish j]) ++ [.collect false false]

set_option maxRecDepth 10000 in
theorem exActs_result : ((run exBest (start fun k => 10 + k) exActs).map fun s => (s.stage, s.sys.pop 2)) =
    some (.reports 1, 11) := by decide +kernel

theorem blocking_of_ne (c : Cfg I) (pop₀ : ℕ → I) (n k : ℕ) (h : k ≠ n % c.Np) :
    blocking c pop₀ (n + 1) k = blocking c pop₀ n k := by
  simp only [blocking]
  exact challenge_ne _ _ _ _ (by simpa [chosen] using h)

/-- C110, negation: a population of twenty numbers, the best of which is the base.  When the twenty challenges of the
first generation have been issued at once, individual 2 is challenged with the best individual at that moment; with a
blocking evaluator it is challenged with the better one that was found by the challenge to individual 1 before. -/
theorem C110_best_differs : ∃ (c : Cfg ℕ) (acts : List RAct) (s : RS ℕ), c.Np = 20 ∧ c.Distinct ∧
    (∀ n kt q, ∃ KS : List ℕ, IsRanking ((List.range 20).map fun k => .fin (q k)) KS ∧
      Sampler.chooseBase KS .falsy kt [0] [] = .value [(c.pick n kt q).kb] ∧
      Sampler.chooseOthers KS kt (c.pick n kt q).kb [0, 1] = .value [(c.pick n kt q).k0, (c.pick n kt q).k1]) ∧
    run c (start fun k => 10 + k) acts = some s ∧ s.stage = .reports 1 ∧ s.sys.pop 2 = 11 ∧
    blocking c (fun k => 10 + k) 20 2 = 4 := by
  have h := exActs_result
  rw [Option.map_eq_some_iff] at h
  obtain ⟨s, hs, he⟩ := h
  injection he with he1 he2
  refine ⟨exBest, exActs, s, rfl, exBest_distinct, ?_, hs, he1, he2, ?_⟩
  · intro n kt q
    exact ⟨exRank q, exRank_ranking q, exPick_program (exRank q) (exRank_perm q) kt⟩
  · have key : ∀ n, 3 ≤ n → n ≤ 20 → blocking exBest (fun k => 10 + k) n 2 = 4 := by
      intro n h3
      induction n, h3 using Nat.le_induction with
      | base => intro _; decide +kernel
      | succ n h3 ih =>
        intro hn
        rw [blocking_of_ne]
        · exact ih (by omega)
        · show 2 ≠ n % 20
          rw [Nat.mod_eq_of_lt (by omega)]; omega
    exact key 20 (by decide) (by decide)

theorem candidates_length (n : ℕ) (KS : List ℕ) (hKS : KS.Perm (List.range n)) (ex : List ℕ) (hnd : ex.Nodup)
    (hlt : ∀ k ∈ ex, k < n) : (Sampler.candidates KS ex).length = n - ex.length := by
  have h0 : (Sampler.candidates KS ex).Nodup := (hKS.nodup_iff.2 List.nodup_range).filter _
  have h1 : (Sampler.candidates KS ex).toFinset = Finset.range n \ ex.toFinset := by
    ext k
    have := hKS.mem_iff (a := k)
    simp [Sampler.candidates, this]
  rw [← List.toFinset_card_of_nodup h0, h1, Finset.card_sdiff_of_subset, Finset.card_range, List.toFinset_card_of_nodup hnd]
  intro k hk
  simpa using hlt k (by simpa using hk)

theorem unique_position {K : List ℕ} (hK : K.Nodup) {k : ℕ} (hk : k ∈ K) :
    ∃ p, p < K.length ∧ K[p]? = some k ∧ ∀ p', K[p']? = some k → p' = p := by
  obtain ⟨p, hp, rfl⟩ := List.getElem_of_mem hk
  refine ⟨p, hp, by simp [hp], ?_⟩
  intro p' h
  obtain ⟨hp', e⟩ := List.getElem?_eq_some_iff.1 h
  exact (hK.getElem_inj_iff).1 e

/-- C110: with a random base (`randomBase` true), each possible choice of the base and of the two others comes from
exactly one outcome of the draws, whatever the ranking of the members: how likely it is does not depend on the state in
which it is made. -/
theorem C110_uniform (n : ℕ) (KS : List ℕ) (hKS : KS.Perm (List.range n)) (kt kb k0 k1 : ℕ)
    (hnd : [kt, kb, k0, k1].Nodup) (hlt : ∀ k ∈ [kt, kb, k0, k1], k < n) :
    ∃! p : ℕ × ℕ × ℕ, (p.1 < n - 1 ∧ p.2.1 < n - 2 ∧ p.2.2 < n - 2 ∧ p.2.1 ≠ p.2.2) ∧
      Sampler.chooseBase KS .one kt [p.1] [] = .value [kb] ∧
      Sampler.chooseOthers KS kt kb [p.2.1, p.2.2] = .value [k0, k1] := by
  simp only [List.nodup_cons, List.mem_cons, List.not_mem_nil, or_false, not_or, List.nodup_nil, and_true,
    not_false_eq_true] at hnd
  obtain ⟨⟨n1, n2, n3⟩, ⟨n4, n5⟩, n6⟩ := hnd
  have hmem : ∀ k, k < n → k ∈ KS := fun k hk => hKS.mem_iff.2 (by simpa using hk)
  have hKn := hKS.nodup_iff.2 List.nodup_range
  have l1 := candidates_length n KS hKS [kt] (by simp) (by intro k hk; exact hlt k (by simp at hk; simp [hk]))
  have l2 := candidates_length n KS hKS [kt, kb] (by simp [n1]) (by
    intro k hk; exact hlt k (by simp at hk; rcases hk with h | h <;> simp [h]))
  simp only [List.length_cons, List.length_nil] at l1 l2
  have m1 : kb ∈ Sampler.candidates KS [kt] := by
    simp [Sampler.candidates, hmem kb (hlt kb (by simp)), Ne.symm n1]
  have m2 : k0 ∈ Sampler.candidates KS [kt, kb] := by
    simp [Sampler.candidates, hmem k0 (hlt k0 (by simp)), Ne.symm n2, Ne.symm n4]
  have m3 : k1 ∈ Sampler.candidates KS [kt, kb] := by
    simp [Sampler.candidates, hmem k1 (hlt k1 (by simp)), Ne.symm n3, Ne.symm n5]
  have u1 : (Sampler.candidates KS [kt]).Nodup := hKn.filter _
  have u2 : (Sampler.candidates KS [kt, kb]).Nodup := hKn.filter _
  obtain ⟨pb, b1, b2, b3⟩ := unique_position u1 m1
  obtain ⟨p0, c1, c2, c3⟩ := unique_position u2 m2
  obtain ⟨p1, d1, d2, d3⟩ := unique_position u2 m3
  have hb : ∀ p, Sampler.chooseBase KS .one kt [p] [] = .value ([p].filterMap fun p => (Sampler.candidates KS [kt])[p]?) := by
    intro p
    have : ¬ (Sampler.candidates KS [kt]).length < 1 := by omega
    simp [Sampler.chooseBase, Sampler.sample, Sampler.randomSample, this]
  have ho : ∀ p q, Sampler.chooseOthers KS kt kb [p, q] =
      .value ([p, q].filterMap fun p => (Sampler.candidates KS [kt, kb])[p]?) := by
    intro p q
    have : ¬ (Sampler.candidates KS [kt, kb]).length < 2 := by
      have : p0 ≠ p1 := by
        rintro rfl
        rw [c2] at d2
        exact n6 (Option.some.inj d2)
      omega
    simp [Sampler.chooseOthers, Sampler.sample, Sampler.randomSample, this]
  have hne : p0 ≠ p1 := by
    rintro rfl
    rw [c2] at d2
    exact n6 (Option.some.inj d2)
  refine ⟨(pb, p0, p1), ⟨⟨by simp only; omega, by simp only; omega, by simp only; omega, hne⟩, ?_, ?_⟩, ?_⟩
  · rw [hb]; simp [b2]
  · rw [ho]; simp [c2, d2]
  · rintro ⟨x, y, z⟩ ⟨⟨hx, hy, hz, hyz⟩, h1, h2⟩
    simp only at hx hy hz hyz h1 h2
    rw [hb] at h1
    rw [ho] at h2
    have e1 : (Sampler.candidates KS [kt])[x]? = some ((Sampler.candidates KS [kt])[x]'(by omega)) := by simp
    have e2 : (Sampler.candidates KS [kt, kb])[y]? = some ((Sampler.candidates KS [kt, kb])[y]'(by omega)) := by simp
    have e3 : (Sampler.candidates KS [kt, kb])[z]? = some ((Sampler.candidates KS [kt, kb])[z]'(by omega)) := by simp
    simp only [List.filterMap_cons, List.filterMap_nil, e1, Sampler.Result.value.injEq, List.cons.injEq, and_true] at h1
    simp only [List.filterMap_cons, List.filterMap_nil, e2, e3, Sampler.Result.value.injEq, List.cons.injEq, and_true] at h2
    rw [b3 x (by rw [e1, h1]), c3 y (by rw [e2, h2.1]), d3 z (by rw [e3, h2.2])]

/-! ## Non-vacuity -/

/-- Four numbers; each is challenged by a number one less than the base, the next individual. -/
def exFixed (x : Bool) : Cfg ℕ :=
  ⟨4, 2, fun a b => decide (a < b), x,
    fun _ kt _ => ⟨(kt + 1) % 4, (kt + 2) % 4, (kt + 3) % 4, fun _ b _ _ => .evaluated (b - 2)⟩⟩

theorem exFixed_distinct (x : Bool) : (exFixed x).Distinct := by
  intro n kt q hkt
  have : kt = 0 ∨ kt = 1 ∨ kt = 2 ∨ kt = 3 := by
    simp only [exFixed] at hkt; omega
  rcases this with rfl | rfl | rfl | rfl <;> simp [exFixed]

/-- All are issued; the last one has to wait for the first one. -/
def exAll : List RAct :=
  [.reported, .reported, .issue, .issue, .issue, .issue, .grant 0, .finish 0, .grant 1, .finish 1, .grant 2, .finish 2,
    .grant 3, .finish 3]

def exFirst (acts : List RAct) (h : (run (exFixed false) (start fun k => 10 + k) acts).isSome = true) : RS ℕ :=
  (run (exFixed false) (start fun k => 10 + k) acts).get h

theorem exFirst_run (acts : List RAct) (h : (run (exFixed false) (start fun k => 10 + k) acts).isSome = true) :
    run (exFixed false) (start fun k => 10 + k) acts = some (exFirst acts h) := eq_get h

attribute [irreducible] exFirst

/-- The last challenger was not better than its target, and is being added to the history. -/
example : (run (exFixed false) (start fun k => 10 + k) exAll).map (fun s => (s.stage, (List.range 4).map s.sys.pop)) =
    some (.waiting 0, [9, 10, 11, 7]) := by decide +kernel

/-- The first generation is over; the second one has not begun. -/
def exBetween : RS ℕ := exFirst (exAll ++ [.collect false false]) (by decide +kernel)

/-- The second generation has begun. -/
def exSecond : RS ℕ := exFirst (exAll ++ [.collect false false, .reported]) (by decide +kernel)

example := C111_no_overlap (exFixed false) (exFixed_distinct _) (fun k => 10 + k) _ exSecond _ (exFirst_run _ _)
  (eq_get (by decide +kernel)) 3 (by decide +kernel)

example := C111_targets (exFixed false) (exFixed_distinct _) (fun k => 10 + k) _ exBetween (exFirst_run _ _) 3 _
  (eq_get (o := exBetween.reqs[3]?) (by decide +kernel))

example := C111_between_generations (exFixed false) (exFixed_distinct _) (fun k => 10 + k) _ exBetween (exFirst_run _ _)
  (by decide +kernel)

example := C111_goes_on_partial (exFixed false) (exFixed_distinct _) (fun k => 10 + k) _ exBetween (exFirst_run _ _)
  (by
    have : exBetween.stage = .reports 1 := by decide +kernel
    intro b; rw [this]; simp) (by decide +kernel)

example := C111_bounded (exFixed false) (exFixed_distinct _) (fun k => 10 + k) _ exBetween (exFirst_run _ _)

example := C111_ends_partial (exFixed false) (exFixed_distinct _) (fun k => 10 + k) _ exBetween (exFirst_run _ _)
  (by decide +kernel)

/-- The history's lock was left acquired before the first generation; `shutdown` is called. -/
example := C111_blocked_never_ends (exFixed false) { start fun k => 10 + k with blocked := true } _ [.shutdown, .shutdown] rfl (.inl rfl)
  (eq_get (by decide +kernel))

/-- While the challenges are waited for. -/
def exWait : RS ℕ := exFirst (exAll.take 7) (by decide +kernel)

example := C111_shutdown_ends (exFixed false) exWait (.inr ⟨0, by decide +kernel⟩)

/-- Challenger 0 is worse than its target and is being added to the history. -/
def exWorse : Cfg ℕ := { exFixed false with pick := fun n kt q => { (exFixed false).pick n kt q with trial := fun t _ _ _ => .evaluated (t + 1) } }

def exAdding : RS ℕ := (run exWorse (start fun k => 10 + k) (exAll.take 8)).get (by decide +kernel)

attribute [irreducible] exAdding

example := C111_failure_ends exWorse exAdding _ 0 ⟨0, by decide +kernel⟩
  (eq_get (o := step exWorse exAdding (.fails 0)) (by decide +kernel))

example := C111_nothing_reported exWorse exAdding _ (.fails 0) [.blocks, .shutdown] (.inr ⟨0, rfl⟩)
  (eq_get (o := run exWorse exAdding [.fails 0, .blocks, .shutdown]) (by decide +kernel))

example := C111_nothing_reported (exFixed false) exWait _ .blocks [.finish 0, .grant 1, .finish 1] (.inl rfl)
  (eq_get (o := run (exFixed false) exWait [.blocks, .finish 0, .grant 1, .finish 1]) (by decide +kernel))

/-- Shut down while challenge 0 was under evaluation, which then ends. -/
def exOver : RS ℕ := exFirst (exAll.take 7 ++ [.shutdown]) (by decide +kernel)

example := C111_nothing_after_end (exFixed false) (exFixed_distinct _) (fun k => 10 + k) _ [.finish 0, .grant 1] exOver _
  false (exFirst_run _ _) (by decide +kernel) (eq_get (o := run (exFixed false) exOver [.finish 0, .grant 1]) (by decide +kernel))

example := C110_same_choices_partial (exFixed false) (exFixed_distinct _) (fun _ _ _ _ => rfl) (fun k => 10 + k) _ exBetween
  (exFirst_run _ _) (by decide +kernel)

/-- Is every challenge issued when all earlier ones have returned? -/
def serial (c : Cfg I) : RS I → List RAct → Bool
  | _, [] => true
  | s, a :: as =>
    (if a = .issue then (List.range s.sys.issued).all fun j => isDone (s.sys.phase j) else true) &&
      match step c s a with
      | none => true
      | some t => serial c t as

theorem serial_spec (c : Cfg I) (s : RS I) (acts : List RAct) (h : serial c s acts = true) :
    ∀ acts₁ acts₂ t, acts = acts₁ ++ .issue :: acts₂ → run c s acts₁ = some t →
      ∀ j, j < t.sys.issued → t.sys.phase j = .done := by
  induction acts generalizing s with
  | nil => intro acts₁ acts₂ t e; simp at e
  | cons a as ih =>
    simp only [serial, Bool.and_eq_true] at h
    intro acts₁ acts₂ t e ht j hj
    cases acts₁ with
    | nil =>
      simp only [List.nil_append, List.cons.injEq] at e
      simp only [run, Option.some.injEq] at ht
      subst ht
      rw [e.1, if_pos rfl, List.all_eq_true] at h
      have := h.1 j (by simpa using hj)
      cases hp : s.sys.phase j <;> simp_all [isDone]
    | cons b bs =>
      simp only [List.cons_append, List.cons.injEq] at e
      obtain ⟨rfl, e⟩ := e
      simp only [run] at ht
      cases hst : step c s a with
      | none => rw [hst] at ht; cases ht
      | some u =>
        rw [hst] at ht h
        exact ih u h.2 bs acts₂ t e ht j hj

/-- With a blocking evaluator. -/
def exSerial : List RAct :=
  [.reported, .reported, .issue, .grant 0, .finish 0, .issue, .grant 1, .finish 1, .issue, .grant 2, .finish 2,
    .issue, .grant 3, .finish 3, .collect false false]

def exSerially : RS ℕ := (run (exFixed true) (start fun k => 10 + k) exSerial).get (by decide +kernel)

theorem exSerially_run : run (exFixed true) (start fun k => 10 + k) exSerial = some exSerially := eq_get _

attribute [irreducible] exSerially

example := C110_one_at_a_time_partial (exFixed true) (exFixed_distinct _) (fun k => 10 + k) exSerial exSerially
  exSerially_run (by decide +kernel) (serial_spec _ _ _ (by decide +kernel))

example := C110_uniform 5 [2, 4, 0, 1, 3] (by decide) 2 4 0 3 (by decide) (by decide)

end RunSystem
end Ade
