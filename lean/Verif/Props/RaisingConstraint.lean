import Verif.Lemmas.Cases
import Verif.Lemmas.RunSystem
import Verif.Props.RunSystem
import Verif.Model.RaisingConstraint

/-!
# Property C143: an exception in a constraint ends the run and leaves the population usable

It ends the run, without changing a member. The population cannot be used for another run afterwards: the lock of the target
is never released.
-/

set_option autoImplicit false

namespace Ade
namespace RaisingConstraint

open DESystem

variable {I : Type}

/-- C143: if a constraint raises while the run is waiting for the challenges of a generation, the run ends at once, without a
final report; no member changes. -/
theorem C143_ends (c : RunSystem.Cfg I) (s s' : RunSystem.RS I) (j : ℕ) (hw : ∃ g, s.stage = .waiting g)
    (hs : raised c s j = some s') : s'.stage = .ended false ∧ s'.sys.running = false ∧ s'.sys.pop = s.sys.pop := by
  obtain ⟨g, e⟩ := hw
  unfold raised at hs
  split at hs
  · split at hs
    · injection hs with hs; subst hs
      simp [RunSystem.settle, e, RunSystem.stop]
    · cases hs
  · cases hs

/-- A generation with a failed challenge is the last. -/
def Last (g : ℕ) (s : RunSystem.RS I) : Prop :=
  (s.failed = true ∧ s.sys.running = true ∧ ∃ kt, s.stage = .issuing g kt) ∨ (s.stage = .ended false ∧ s.sys.running = false)

theorem settle_last {g : ℕ} {s : RunSystem.RS I} (h : (s.failed = true ∧ ((∃ kt, s.stage = .issuing g kt) ∨ s.stage = .waiting g)) ∨
    (s.stage = .ended false ∧ s.sys.running = false)) : Last g (RunSystem.settle s) := by
  rcases h with ⟨hf, ⟨kt, e⟩ | e⟩ | ⟨e, hr⟩
  · unfold RunSystem.settle
    rw [e]
    simp only
    by_cases hr : s.sys.running = true
    · rw [if_pos hr]; exact .inl ⟨hf, hr, kt, e⟩
    · rw [if_neg hr]; exact .inr ⟨rfl, by simpa using hr⟩
  · unfold RunSystem.settle
    rw [e]
    simp only [hf, Bool.not_true, Bool.and_false, Bool.false_eq_true, if_false]
    exact .inr ⟨rfl, rfl⟩
  · unfold RunSystem.settle
    rw [e]
    exact .inr ⟨e, hr⟩

/-- The challenges keep a run that is shut down as it is. -/
theorem step_stopped (P : Params I) {s s' : Sys I} {a : Act} (hr : s.running = false) (hs : DESystem.step P s a = some s') :
    s'.running = false ∧ s'.pop = s.pop := by
  cases a with
  | issue => simp only [DESystem.step, hr, Bool.false_eq_true, if_false] at hs; injection hs with hs; subst hs; exact ⟨rfl, rfl⟩
  | grant j =>
    simp only [DESystem.step, hr, Bool.false_eq_true, if_false] at hs
    split at hs
    · split at hs
      · injection hs with hs; subst hs; exact ⟨rfl, rfl⟩
      · cases hs
    · cases hs
  | finish j =>
    simp only [DESystem.step, hr] at hs
    split at hs
    · injection hs with hs; subst hs; exact ⟨rfl, rfl⟩
    · cases hs
  | recorded j =>
    simp only [DESystem.step] at hs
    split at hs
    · injection hs with hs; subst hs; exact ⟨hr, rfl⟩
    · cases hs
  | shutdown => simp only [DESystem.step] at hs; injection hs with hs; subst hs; exact ⟨rfl, rfl⟩

theorem last_step {c : RunSystem.Cfg I} {g : ℕ} {s s' : RunSystem.RS I} {a : XAct} (h : Last g s) (hs : step c s a = some s') :
    Last g s' ∧ (s.stage = .ended false → s'.sys.pop = s.sys.pop) := by
  have hpopS : ∀ t : RunSystem.RS I, (RunSystem.settle t).sys.pop = t.sys.pop := by
    intro t; unfold RunSystem.settle
    split <;> (try split) <;> rfl
  have hch : ∀ (b : Act) (s' : RunSystem.RS I), RunSystem.challengeStep c s b = some s' →
      Last g s' ∧ (s.stage = .ended false → s'.sys.pop = s.sys.pop) := by
    intro b s' hs
    unfold RunSystem.challengeStep at hs
    split at hs
    · cases hs
    · rename_i sys hsys
      injection hs with hs; subst hs
      rcases h with ⟨hf, hr, kt, e⟩ | ⟨e, hr⟩
      · exact ⟨settle_last (.inl ⟨hf, .inl ⟨kt, e⟩⟩), fun e' => by rw [e] at e'; cases e'⟩
      · obtain ⟨h1, h2⟩ := step_stopped _ hr hsys
        exact ⟨settle_last (.inr ⟨e, h1⟩), fun _ => by rw [hpopS]; exact h2⟩
  cases a with
  | raises j =>
    simp only [step, raised] at hs
    split at hs
    · split at hs
      · rename_i hg
        injection hs with hs; subst hs
        rcases h with ⟨hf, hr, kt, e⟩ | ⟨e, hr⟩
        · exact ⟨settle_last (.inl ⟨rfl, .inl ⟨kt, e⟩⟩), fun _ => by rw [hpopS]⟩
        · rw [hr] at hg; simp at hg
      · cases hs
    · cases hs
  | act a =>
    simp only [step] at hs
    cases a with
    | reported =>
      simp only [RunSystem.step] at hs
      rcases h with ⟨hf, hr, kt, e⟩ | ⟨e, hr⟩ <;> simp [e] at hs
    | issue =>
      simp only [RunSystem.step] at hs
      rcases h with ⟨hf, hr, kt, e⟩ | ⟨e, hr⟩
      · rw [e] at hs
        simp only at hs
        split at hs
        · cases hs
        · injection hs with hs; subst hs
          refine ⟨settle_last (.inl ⟨hf, ?_⟩), fun e' => by rw [e] at e'; cases e'⟩
          unfold RunSystem.nextTarget
          simp only
          split
          · exact .inr rfl
          · exact .inl ⟨_, rfl⟩
      · rw [e] at hs; cases hs
    | grant j => exact hch _ _ hs
    | finish j => exact hch _ _ hs
    | recorded j =>
      simp only [RunSystem.step] at hs
      split at hs
      · cases hs
      · exact hch _ _ hs
    | fails j =>
      simp only [RunSystem.step] at hs
      split at hs
      · cases hs
      · split at hs
        · injection hs with hs; subst hs
          rcases h with ⟨hf, hr, kt, e⟩ | ⟨e, hr⟩
          · exact ⟨settle_last (.inl ⟨rfl, .inl ⟨kt, e⟩⟩), fun _ => by rw [hpopS]⟩
          · exact ⟨settle_last (.inr ⟨e, hr⟩), fun _ => by rw [hpopS]⟩
        · cases hs
    | blocks =>
      simp only [RunSystem.step] at hs
      injection hs with hs; subst hs
      exact ⟨h, fun _ => rfl⟩
    | collect b b' =>
      simp only [RunSystem.step] at hs
      rcases h with ⟨hf, hr, kt, e⟩ | ⟨e, hr⟩ <;> simp [e] at hs
    | shutdown =>
      simp only [RunSystem.step] at hs
      injection hs with hs; subst hs
      rcases h with ⟨hf, hr, kt, e⟩ | ⟨e, hr⟩
      · exact ⟨settle_last (.inl ⟨hf, .inl ⟨kt, e⟩⟩), fun _ => by rw [hpopS]; rfl⟩
      · exact ⟨settle_last (.inr ⟨e, rfl⟩), fun _ => by rw [hpopS]; rfl⟩

/-- C143: the generation in which a constraint raises is the last one, whatever happens then: the remaining challenges of the
generation are issued if they were being issued, and the run ends without a final report. -/
theorem C143_last_generation (c : RunSystem.Cfg I) (g : ℕ) (s s' t : RunSystem.RS I) (j : ℕ) (acts : List XAct)
    (hw : (∃ kt, s.stage = .issuing g kt) ∨ s.stage = .waiting g) (hs : raised c s j = some s') (ht : run c s' acts = some t) :
    (∃ kt, t.stage = .issuing g kt) ∨ t.stage = .ended false := by
  have h₀ : Last g s' := by
    unfold raised at hs
    split at hs
    · split at hs
      · injection hs with hs; subst hs
        exact settle_last (.inl ⟨rfl, hw⟩)
      · cases hs
    · cases hs
  have key : ∀ (acts : List XAct) (u : RunSystem.RS I), Last g u → run c u acts = some t → Last g t := by
    intro acts
    induction acts with
    | nil => intro u hu h; simp only [run, Option.some.injEq] at h; subst h; exact hu
    | cons a acts ih =>
      intro u hu h
      simp only [run] at h
      cases hst : step c u a with
      | none => rw [hst] at h; cases h
      | some u' => rw [hst] at h; exact ih u' (last_step hu hst).1 h
  rcases key acts s' h₀ ht with ⟨-, -, h⟩ | ⟨h, -⟩
  · exact .inl h
  · exact .inr h

/-- C143: after the end no member changes. -/
theorem C143_nothing_after_end (c : RunSystem.Cfg I) (s t : RunSystem.RS I) (acts : List XAct) (he : s.stage = .ended false)
    (hr : s.sys.running = false) (ht : run c s acts = some t) : t.stage = .ended false ∧ t.sys.pop = s.sys.pop := by
  induction acts generalizing s with
  | nil => simp only [run, Option.some.injEq] at ht; subst ht; exact ⟨he, rfl⟩
  | cons a acts ih =>
    simp only [run] at ht
    cases hst : step c s a with
    | none => rw [hst] at ht; cases ht
    | some u =>
      rw [hst] at ht
      obtain ⟨h1, h2⟩ := last_step (g := 0) (.inr ⟨he, hr⟩) hst
      have hu : u.stage = .ended false ∧ u.sys.running = false := by
        rcases h1 with ⟨-, -, kt, e⟩ | h1
        · -- a run that has ended does not issue challenges, neither in generation 0 nor in generation 1
          rcases (last_step (g := 1) (.inr ⟨he, hr⟩) hst).1 with ⟨-, -, kt', e'⟩ | h1
          · rw [e] at e'; injection e' with e1 e2; cases e1
          · exact h1
        · exact h1
      obtain ⟨h3, h4⟩ := ih u hu.1 hu.2 ht
      exact ⟨h3, h4.trans (h2 he)⟩

/-! ## The next run -/

/-- The lock of member `k` is held by challenge `j` of the first object, which has failed; the challenges of the second object that
need the lock wait for it. -/
structure Stuck (P : Params I) (k j : ℕ) (t : Session.Ses I) : Prop where
  head : (t.sys.queue k).head? = some j
  old : j < t.old
  le : t.old ≤ t.sys.issued
  done : t.sys.phase j = .done
  idle : ∀ n, t.sys.issued ≤ n → t.sys.phase n = .idle
  none : ∀ n, n < t.old → t.sys.phase n ≠ .waiting
  waits : ∀ n, t.sys.phase n = .waiting → k ∈ (P.req n).idx → n ∈ t.sys.queue k
  other : ∀ n, ((∃ x o, t.sys.phase n = .evaluating x o) ∨ t.sys.phase n = .recording) → (P.req n).kt ≠ k
  new : ∀ n, t.old ≤ n → k ∈ (P.req n).idx → t.sys.phase n = .idle ∨ t.sys.phase n = .waiting

theorem acquire_head (l : List ℕ) (q : ℕ → List ℕ) (n k j : ℕ) (h : (q k).head? = some j) :
    (l.foldl (fun q k => acquire q n k) q k).head? = some j ∧
      (∀ m ∈ q k, m ∈ l.foldl (fun q k => acquire q n k) q k) ∧ (k ∈ l → n ∈ l.foldl (fun q k => acquire q n k) q k) := by
  induction l generalizing q with
  | nil => exact ⟨h, fun m hm => hm, fun hk => absurd hk (by simp)⟩
  | cons a l ih =>
    rw [List.foldl_cons]
    have hq : (acquire q n a k).head? = some j := by
      unfold acquire
      rw [Function.update_apply]
      split
      · rename_i e; subst e
        cases hk : q k with
        | nil => rw [hk] at h; cases h
        | cons x xs => rw [hk] at h; simpa using h
      · exact h
    have hsub : ∀ m ∈ q k, m ∈ acquire q n a k := by
      intro m hm
      unfold acquire
      rw [Function.update_apply]
      split
      · rename_i e; subst e; exact List.mem_append_left _ hm
      · exact hm
    obtain ⟨h1, h2, h3⟩ := ih (acquire q n a) hq
    refine ⟨h1, fun m hm => h2 m (hsub m hm), fun hk => ?_⟩
    by_cases e : k = a
    · subst e
      exact h2 n (by simp [acquire])
    · exact h3 (by simpa [e] using hk)

theorem release_of_ne (q : ℕ → List ℕ) (k k' : ℕ) (h : k' ≠ k) : release q k' k = q k := by
  rw [release_apply, if_neg (fun e => h e.symm)]

/-- A change of the phase of one challenge that leaves the queue of `k` alone and is not to a phase concerning `k`. -/
theorem Stuck.change {P : Params I} {k j : ℕ} {t : Session.Ses I} (h : Stuck P k j t) (n : ℕ) (ph : Phase I) (sys : Sys I)
    (hq : sys.queue k = t.sys.queue k) (hi : sys.issued = t.sys.issued) (hp : sys.phase = Function.update t.sys.phase n ph)
    (hn : n < t.sys.issued) (hnj : n = j → ph = .done) (hw : ph ≠ .waiting)
    (ho : ((∃ x o, ph = .evaluating x o) ∨ ph = .recording) → (P.req n).kt ≠ k) (hk : t.old ≤ n → k ∉ (P.req n).idx) :
    Stuck P k j { t with sys := sys } where
  head := by show (sys.queue k).head? = _; rw [hq]; exact h.head
  old := h.old
  le := by show t.old ≤ sys.issued; rw [hi]; exact h.le
  done := by
    show sys.phase j = _
    rw [hp, Function.update_apply]
    split
    · rename_i e; exact hnj e.symm
    · exact h.done
  idle := by
    intro m hm
    have hm' : t.sys.issued ≤ m := by rw [← hi]; exact hm
    show sys.phase m = _
    rw [hp, Function.update_apply, if_neg (by omega)]
    exact h.idle m hm'
  none := by
    intro m hm
    show sys.phase m ≠ _
    rw [hp, Function.update_apply]
    split
    · exact hw
    · exact h.none m hm
  waits := by
    intro m hm hkm
    have hm' : sys.phase m = .waiting := hm
    show m ∈ sys.queue k
    rw [hq]
    rw [hp, Function.update_apply] at hm'
    split at hm'
    · exact absurd hm' hw
    · exact h.waits m hm' hkm
  other := by
    intro m hm
    have hm' : (∃ x o, sys.phase m = .evaluating x o) ∨ sys.phase m = .recording := hm
    rw [hp, Function.update_apply] at hm'
    split at hm'
    · rename_i e; subst e; exact ho hm'
    · exact h.other m hm'
  new := by
    intro m hm hkm
    show sys.phase m = _ ∨ sys.phase m = _
    rw [hp, Function.update_apply]
    split
    · rename_i e; subst e; exact absurd hkm (hk hm)
    · exact h.new m hm hkm

theorem stuck_step {P : Params I} {k j : ℕ} {t t' : Session.Ses I} {a : Act} (h : t.sys.running = true → Stuck P k j t)
    (hs : Session.step P t a = some t') (hr : t'.sys.running = true) : Stuck P k j t' := by
  have hrun : t.sys.running = true := by
    by_contra hc
    simp only [Bool.not_eq_true] at hc
    unfold Session.step at hs
    split at hs
    · split at hs
      · cases hs
      · injection hs with hs; subst hs
        have hr' : t.sys.running = true := hr
        rw [hc] at hr'; cases hr'
    · split at hs
      · cases hs
      · rename_i u hu
        injection hs with hs; subst hs
        have hr' : u.running = true := hr
        rw [(step_stopped P hc hu).1] at hr'; cases hr'
  have H := h hrun
  have lt_of : ∀ n, t.sys.phase n ≠ .idle → n < t.sys.issued := by
    intro n hn
    by_contra hc
    exact hn (H.idle n (by omega))
  unfold Session.step at hs
  by_cases hold : Session.isOld t a = true
  · rw [if_pos hold] at hs
    cases hst : DESystem.step P { t.sys with running := false } a with
    | none => rw [hst] at hs; cases hs
    | some u =>
      rw [hst] at hs
      simp only [Option.some.injEq] at hs
      subst hs
      cases a with
      | issue => simp [Session.isOld, Session.subject] at hold
      | shutdown => simp [Session.isOld, Session.subject] at hold
      | grant n =>
        simp only [Session.isOld, Session.subject, decide_eq_true_eq] at hold
        simp only [DESystem.step] at hst
        split at hst
        · rename_i hph; exact absurd hph (H.none n hold)
        · cases hst
      | finish n =>
        simp only [Session.isOld, Session.subject, decide_eq_true_eq] at hold
        simp only [DESystem.step] at hst
        split at hst
        · rename_i x o hph
          injection hst with hst; subst hst
          exact H.change n .done _ (release_of_ne _ _ _ (H.other n (.inl ⟨_, _, hph⟩))) rfl rfl
            (lt_of n (by rw [hph]; simp)) (fun _ => rfl) (by simp) (by simp) (fun e => by omega)
        · cases hst
      | recorded n =>
        simp only [Session.isOld, Session.subject, decide_eq_true_eq] at hold
        simp only [DESystem.step] at hst
        split at hst
        · rename_i hph
          injection hst with hst; subst hst
          exact H.change n .done _ (release_of_ne _ _ _ (H.other n (.inr hph))) rfl rfl
            (lt_of n (by rw [hph]; simp)) (fun _ => rfl) (by simp) (by simp) (fun e => by omega)
        · cases hst
  · rw [if_neg hold] at hs
    cases hst : DESystem.step P t.sys a with
    | none => rw [hst] at hs; cases hs
    | some u =>
      rw [hst] at hs
      simp only [Option.some.injEq] at hs
      subst hs
      cases a with
      | issue =>
        simp only [DESystem.step, hrun, if_true, Option.some.injEq] at hst
        subst hst
        obtain ⟨a1, a2, a3⟩ := acquire_head (P.req t.sys.issued).idx t.sys.queue t.sys.issued k j H.head
        have hjl : j < t.sys.issued := lt_of_lt_of_le H.old H.le
        refine ⟨a1, H.old, H.le.trans (Nat.le_succ _), ?_, ?_, ?_, ?_, ?_, ?_⟩
        · simp only [Function.update_apply]
          rw [if_neg (by omega)]
          exact H.done
        · intro n hn
          have hn' : t.sys.issued + 1 ≤ n := hn
          simp only [Function.update_apply]
          rw [if_neg (by omega)]
          exact H.idle n (by omega)
        · intro n hn
          have hn' : n < t.old := hn
          have := H.le
          simp only [Function.update_apply]
          rw [if_neg (by omega)]
          exact H.none n hn
        · intro n hn hkn
          simp only [Function.update_apply] at hn
          split at hn
          · rename_i e; subst e; exact a3 hkn
          · exact a2 n (H.waits n hn hkn)
        · intro n hn
          simp only [Function.update_apply] at hn
          split at hn
          · simp at hn
          · exact H.other n hn
        · intro n hn hkn
          simp only [Function.update_apply]
          split
          · exact .inr rfl
          · exact H.new n hn hkn
      | grant n =>
        simp only [Session.isOld, Session.subject, decide_eq_true_eq, not_lt] at hold
        simp only [DESystem.step, hrun, if_true] at hst
        split at hst
        · rename_i hph
          split at hst
          · rename_i hg
            have hkn : k ∉ (P.req n).idx := by
              intro hkn
              have := head_of_granted hg hkn (H.waits n hph hkn)
              rw [H.head] at this
              injection this with this
              subst this
              rw [H.done] at hph; cases hph
            have hne : (P.req n).kt ≠ k ∧ (P.req n).kb ≠ k ∧ (P.req n).k0 ≠ k ∧ (P.req n).k1 ≠ k := by
              simp only [Req.idx, List.mem_cons, List.not_mem_nil, or_false, not_or] at hkn
              exact ⟨fun e => hkn.1 e.symm, fun e => hkn.2.1 e.symm, fun e => hkn.2.2.1 e.symm, fun e => hkn.2.2.2 e.symm⟩
            have hl := lt_of n (by rw [hph]; simp)
            have hnj : n ≠ j := fun e => by rw [e, H.done] at hph; cases hph
            split at hst
            · injection hst with hst; subst hst
              refine H.change n .done _ ?_ rfl rfl hl (fun _ => rfl) (by simp) (by simp) (fun _ => hkn)
              show release _ _ k = _
              rw [release_of_ne _ _ _ hne.1, release_of_ne _ _ _ hne.2.2.2, release_of_ne _ _ _ hne.2.2.1,
                release_of_ne _ _ _ hne.2.1]
            · injection hst with hst; subst hst
              refine H.change n _ _ ?_ rfl rfl hl (fun e => absurd e hnj) (by simp) (fun _ => hne.1) (fun _ => hkn)
              show release _ _ k = _
              rw [release_of_ne _ _ _ hne.2.2.2, release_of_ne _ _ _ hne.2.2.1, release_of_ne _ _ _ hne.2.1]
          · cases hst
        · cases hst
      | finish n =>
        simp only [Session.isOld, Session.subject, decide_eq_true_eq, not_lt] at hold
        simp only [DESystem.step] at hst
        split at hst
        · rename_i x o hph
          have hkt := H.other n (.inl ⟨_, _, hph⟩)
          have hl := lt_of n (by rw [hph]; simp)
          have hnj : n ≠ j := fun e => by rw [e, H.done] at hph; cases hph
          have hkn : k ∉ (P.req n).idx := by
            intro hkn
            rcases H.new n hold hkn with e | e <;> rw [hph] at e <;> cases e
          split at hst
          · split at hst
            · injection hst with hst; subst hst
              exact H.change n .done _ (release_of_ne _ _ _ hkt) rfl rfl hl (fun _ => rfl) (by simp) (by simp) (fun _ => hkn)
            · split at hst
              · injection hst with hst; subst hst
                exact H.change n .recording _ rfl rfl rfl hl (fun e => absurd e hnj) (by simp) (fun _ => hkt) (fun _ => hkn)
              · injection hst with hst; subst hst
                exact H.change n .done _ (release_of_ne _ _ _ hkt) rfl rfl hl (fun _ => rfl) (by simp) (by simp) (fun _ => hkn)
          · injection hst with hst; subst hst
            cases hr
        · cases hst
      | recorded n =>
        simp only [Session.isOld, Session.subject, decide_eq_true_eq, not_lt] at hold
        simp only [DESystem.step] at hst
        split at hst
        · rename_i hph
          have hkt := H.other n (.inr hph)
          have hl := lt_of n (by rw [hph]; simp)
          have hkn : k ∉ (P.req n).idx := by
            intro hkn
            rcases H.new n hold hkn with e | e <;> rw [hph] at e <;> cases e
          injection hst with hst; subst hst
          exact H.change n .done _ (release_of_ne _ _ _ hkt) rfl rfl hl (fun _ => rfl) (by simp) (by simp) (fun _ => hkn)
        · cases hst
      | shutdown =>
        simp only [DESystem.step, Option.some.injEq] at hst
        subst hst
        cases hr

theorem stuck_run {P : Params I} {k j : ℕ} (acts : List Act) : ∀ {t t' : Session.Ses I},
    (t.sys.running = true → Stuck P k j t) → Session.run P t acts = some t' → t'.sys.running = true → Stuck P k j t' := by
  induction acts with
  | nil => intro t t' h hr; simp only [Session.run, Option.some.injEq] at hr; subst hr; exact h
  | cons a acts ih =>
    intro t t' h hr
    simp only [Session.run] at hr
    cases hst : Session.step P t a with
    | none => rw [hst] at hr; cases hr
    | some u => rw [hst] at hr; exact ih (fun hu => stuck_step h hst hu) hr

theorem old_run {P : Params I} (acts : List Act) : ∀ {t t' : Session.Ses I}, Session.run P t acts = some t' → t'.old = t.old := by
  induction acts with
  | nil => intro t t' hr; simp only [Session.run, Option.some.injEq] at hr; subst hr; rfl
  | cons a acts ih =>
    intro t t' hr
    simp only [Session.run] at hr
    cases hst : Session.step P t a with
    | none => rw [hst] at hr; cases hr
    | some u =>
      rw [hst] at hr
      rw [ih hr]
      unfold Session.step at hst
      split at hst <;> split at hst
      · cases hst
      · injection hst with hst; subst hst; rfl
      · cases hst
      · injection hst with hst; subst hst; rfl

/-- C143 is false for the code: if a constraint raises while the run is waiting for its challenges, none of which is waiting for
locks any more, another run on the population never gets its challenges done that concern the member whose challenge failed,
however long it runs; so it does not complete a single generation. -/
theorem C143_next_run_blocked (c : RunSystem.Cfg I) (hd : c.Distinct) (pop₀ : ℕ → I) (acts : List RunSystem.RAct)
    (s s' : RunSystem.RS I) (h : RunSystem.run c (RunSystem.start pop₀) acts = some s) (g : ℕ) (hg : s.stage = .waiting g) (j : ℕ)
    (hw : ∀ n, s.sys.phase n = .waiting → n = j) (hs : raised c s j = some s')
    (P : Params I) (hP : RunSystem.Agrees c s.reqs P) (later : List Act) (t : Session.Ses I)
    (ht : Session.run P (Session.another s'.sys) later = some t) (hr : t.sys.running = true) :
    (∀ n, s.sys.issued ≤ n → (P.req j).kt ∈ (P.req n).idx → t.sys.phase n = .idle ∨ t.sys.phase n = .waiting) ∧
    ((∀ i, i < c.Np → (P.req (s.sys.issued + i)).kt = i) → ∃ i, i < c.Np ∧ t.sys.phase (s.sys.issued + i) ≠ .done) := by
  have hinv := RunSystem.rinv_run hd h
  have hstage := hinv.stage
  rw [hg] at hstage
  obtain ⟨his, -, -, hf, hrun, -⟩ := hstage
  obtain ⟨hi, hri⟩ := DESystem.inv_reachable (RunSystem.agrees_distinct hinv.nodup)
    (hinv.reach hf _ (RunSystem.agrees_params c s.reqs))
  replace hri := hri hrun
  have hQ : ∀ n, n < s.sys.issued → P.req n = (RunSystem.params c s.reqs).req n :=
    fun n hn => hP.eq_params (by rw [hinv.length]; exact hn)
  -- the state after the exception
  unfold raised at hs
  split at hs
  swap; · cases hs
  rename_i hph
  split at hs
  swap; · cases hs
  rename_i hgr
  simp only [Bool.and_eq_true] at hgr
  have hjl : j < s.sys.issued := (hi.issued j).2 (by simp [Sys.kind, hph, Phase.kind])
  have hkt := Req.kt_mem ((RunSystem.params c s.reqs).req j)
  have hhead := head_of_granted hgr.1 hkt (hri.queued j (by simp [Sys.kind, hph, Phase.kind]) _ hkt)
  have hnd := RunSystem.agrees_distinct (c := c) hinv.nodup j
  generalize hr' : (RunSystem.params c s.reqs).req j = r at hs hkt hhead hnd
  have hPj : P.req j = r := by rw [hQ j hjl, hr']
  simp only [Req.idx, List.nodup_cons, List.mem_cons, List.not_mem_nil, or_false, not_or] at hnd
  obtain ⟨⟨d1, d2, d3⟩, -⟩ := hnd
  have hsys : s'.sys = { s.sys with
      queue := release (release (release s.sys.queue r.kb) r.k0) r.k1
      phase := Function.update s.sys.phase j .done
      running := false } := by
    injection hs with hs
    rw [← hs]
    simp [RunSystem.settle, hg, RunSystem.stop]
  have hqk : s'.sys.queue r.kt = s.sys.queue r.kt := by
    rw [hsys]
    show release _ _ r.kt = _
    rw [release_of_ne _ _ _ (fun e => d3 e.symm), release_of_ne _ _ _ (fun e => d2 e.symm),
      release_of_ne _ _ _ (fun e => d1 e.symm)]
  have hphase : s'.sys.phase = Function.update s.sys.phase j .done := by rw [hsys]
  have hissued : s'.sys.issued = s.sys.issued := by rw [hsys]
  have start : Stuck P r.kt j (Session.another s'.sys) := by
    refine ⟨?_, ?_, le_refl _, ?_, ?_, ?_, ?_, ?_, ?_⟩
    · show (s'.sys.queue r.kt).head? = _
      rw [hqk]; exact hhead
    · show j < s'.sys.issued
      omega
    · show s'.sys.phase j = _
      rw [hphase]; simp
    · intro n hn
      have hn' : s'.sys.issued ≤ n := hn
      show s'.sys.phase n = _
      rw [hphase, Function.update_apply, if_neg (by omega)]
      exact hinv.idle n (by omega)
    · intro n hn e
      have e' : s'.sys.phase n = .waiting := e
      rw [hphase, Function.update_apply] at e'
      split at e'
      · cases e'
      · rename_i hne; exact hne (hw n e')
    · intro n e _
      have e' : s'.sys.phase n = .waiting := e
      rw [hphase, Function.update_apply] at e'
      split at e'
      · cases e'
      · rename_i hne; exact absurd (hw n e') hne
    · intro n e
      have e' : (∃ x o, s'.sys.phase n = .evaluating x o) ∨ s'.sys.phase n = .recording := e
      rw [hphase, Function.update_apply] at e'
      split at e'
      · simp at e'
      · rename_i hne
        have hact : s.sys.kind n = .active := by
          rcases e' with ⟨x, o, e'⟩ | e' <;> simp [Sys.kind, e', Phase.kind]
        have hnl : n < s.sys.issued := (hi.issued n).2 (by rw [hact]; simp)
        have hh := hri.holds n hact
        intro ek
        rw [← hQ n hnl, ek, hhead] at hh
        injection hh with hh
        exact hne hh.symm
    · intro n hn _
      have hn' : s'.sys.issued ≤ n := hn
      left
      show s'.sys.phase n = _
      rw [hphase, Function.update_apply, if_neg (by omega)]
      exact hinv.idle n (by omega)
  have fin := stuck_run later (fun _ => start) ht hr
  have hold : t.old = s.sys.issued := by
    rw [old_run later ht]; exact hissued
  have first : ∀ n, s.sys.issued ≤ n → (P.req j).kt ∈ (P.req n).idx → t.sys.phase n = .idle ∨ t.sys.phase n = .waiting := by
    intro n hn hk
    rw [hPj] at hk
    exact fin.new n (by omega) hk
  refine ⟨first, fun hreq => ?_⟩
  obtain ⟨rj, hrj⟩ : ∃ x, s.reqs[j]? = some x := ⟨_, List.getElem?_eq_getElem (by rw [hinv.length]; exact hjl)⟩
  have hkj : (P.req j).kt = j % c.Np := by
    rw [hP.req j rj hrj]
    exact (RunSystem.C111_targets c hd pop₀ acts s h j rj hrj).1
  have hpos : 0 < c.Np := by
    rcases Nat.eq_zero_or_pos c.Np with e | e
    · rw [e] at his; omega
    · exact e
  refine ⟨(P.req j).kt, by rw [hkj]; exact Nat.mod_lt _ hpos, ?_⟩
  have hk : (P.req j).kt ∈ (P.req (s.sys.issued + (P.req j).kt)).idx := by
    have := Req.kt_mem (P.req (s.sys.issued + (P.req j).kt))
    rw [hreq (P.req j).kt (by rw [hkj]; exact Nat.mod_lt _ hpos)] at this
    exact this
  rcases first _ (by omega) hk with e | e <;> rw [e] <;> simp

namespace Demo

open RunSystem (exFixed exFixed_distinct exAll exFirst exFirst_run)

/-- Three challenges of the first generation are over, the fourth has its locks. -/
def exThree : RunSystem.RS ℕ := exFirst (exAll.take 12) (by decide +kernel)

/-- A constraint raises in the fourth one. -/
def exRaised : RunSystem.RS ℕ := (raised (exFixed false) exThree 3).get (by decide +kernel)

theorem exRaised_eq : raised (exFixed false) exThree 3 = some exRaised := eq_get _

attribute [irreducible] exRaised

example := C143_ends (exFixed false) exThree exRaised 3 ⟨0, by decide +kernel⟩ exRaised_eq

example := C143_last_generation (exFixed false) 0 exThree exRaised _ 3 [.act .shutdown, .act .blocks] (.inr (by decide +kernel))
  exRaised_eq (eq_get (o := run (exFixed false) exRaised [.act .shutdown, .act .blocks]) (by decide +kernel))

/-- The first challenge raises while the others are being issued. -/
def exEarly : RunSystem.RS ℕ := exFirst (exAll.take 3) (by decide +kernel)

def exEarlyRaised : RunSystem.RS ℕ := (raised (exFixed false) exEarly 0).get (by decide +kernel)

theorem exEarlyRaised_eq : raised (exFixed false) exEarly 0 = some exEarlyRaised := eq_get _

attribute [irreducible] exEarlyRaised

def exAfterEarly : RunSystem.RS ℕ :=
  (run (exFixed false) exEarlyRaised [.act .issue, .act .issue, .act .issue]).get (by decide +kernel)

theorem exAfterEarly_eq : run (exFixed false) exEarlyRaised [.act .issue, .act .issue, .act .issue] = some exAfterEarly := eq_get _

attribute [irreducible] exAfterEarly

example := C143_last_generation (exFixed false) 0 exEarly exEarlyRaised _ 0 _ (.inl ⟨1, by decide +kernel⟩)
  exEarlyRaised_eq exAfterEarly_eq

example := C143_nothing_after_end (exFixed false) exAfterEarly _ [.act .shutdown, .act .blocks] (by decide +kernel) (by decide +kernel)
  (eq_get (o := run (exFixed false) exAfterEarly [.act .shutdown, .act .blocks]) (by decide +kernel))

/-- The challenges of another run, which are chosen like those of the first generation. -/
def exNext : Params ℕ := RunSystem.params (exFixed false) (exThree.reqs ++ exThree.reqs)

def exSecond : Session.Ses ℕ :=
  (Session.run exNext (Session.another exRaised.sys) [.issue, .issue, .issue, .issue]).get (by decide +kernel)

theorem exSecond_eq : Session.run exNext (Session.another exRaised.sys) [.issue, .issue, .issue, .issue] = some exSecond := eq_get _

example := C143_next_run_blocked (exFixed false) (exFixed_distinct _) (fun k => 10 + k) _ exThree exRaised (exFirst_run _ _) 0
  (by decide +kernel) 3 (by
    have hl : ∀ n, n < 3 → RunSystem.isDone (exThree.sys.phase n) = true := by decide +kernel
    intro n hn
    by_cases h : n < 3
    · have := hl n h
      rw [hn] at this; cases this
    by_cases h3 : n = 3
    · exact h3
    · have := (RunSystem.rinv_run (exFixed_distinct false) (exFirst_run (exAll.take 12) (by decide +kernel))).idle n
        (by have : exThree.sys.issued = 4 := by decide +kernel
            unfold exThree at this
            omega)
      unfold exThree at hn
      rw [this] at hn; cases hn)
  exRaised_eq exNext (RunSystem.agrees_params _ _).of_append [.issue, .issue, .issue, .issue] exSecond exSecond_eq
  (by decide +kernel)

/-- Every challenge of the second run is waiting. -/
example : ((List.range 4).all fun i => decide (exSecond.sys.kind (4 + i) = .waiting)) = true := by decide +kernel

example : ∀ i, i < (exFixed false).Np → (exNext.req (exThree.sys.issued + i)).kt = i := by decide +kernel

end Demo

end RaisingConstraint
end Ade
