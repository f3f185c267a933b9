import Verif.Lemmas.Cases
import Verif.Model.AbortRun
import Verif.Props.DESystem

/-!
# Property C76: aborting the population during a run

Theorems quantify over every population, sequence of challenges with four distinct indices, trial functions
before and after the abort, and every interleaving of acts, with any number of aborts and shutdowns anywhere.
-/

set_option autoImplicit false

namespace Ade
namespace AbortRun

open DESystem

variable {I : Type}

/-! ## Invariants -/

theorem not_mem_tail_of_granted {P : Params I} {s : Sys I} (h : Inv P s) {j : ℕ} (hw : s.kind j = .waiting)
    (hg : granted P s j = true) (k : ℕ) : j ∉ (s.queue k).tail := by
  intro hm
  by_cases hk : k ∈ (P.req j).idx
  · unfold granted at hg
    rw [List.all_eq_true] at hg
    have := hg k hk
    simp only [Bool.not_eq_true', List.contains_eq_mem, decide_eq_false_iff_not] at this
    exact this hm
  · exact not_mem_of_waiting h hw hk (List.mem_of_mem_tail hm)

/-- The invariants of the locks are preserved by a continuing challenge even when it does not hold its locks
any more. -/
theorem inv_grant {P : Params I} (hd : Distinct P) {s s' : Sys I} {j : ℕ} (h : Inv P s)
    (hs : step P s (.grant j) = some s') : Inv P s' := by
  simp only [step] at hs
  cases hp : s.phase j with
  | waiting =>
    have hw : s.kind j = .waiting := by unfold Sys.kind; rw [hp]; rfl
    have hni : s.kind j ≠ .idle := by rw [hw]; simp
    simp only [hp] at hs
    split at hs
    · rename_i hg
      have hnt := not_mem_tail_of_granted h hw hg
      split at hs
      · obtain ⟨n1, n2, n3, n4, n5, n6⟩ := idx_ne hd j
        have hq3 := release3_apply s.queue n4 n5 n6
        cases htr : (P.req j).trial (s.pop (P.req j).kt) (s.pop (P.req j).kb) (s.pop (P.req j).k0)
          (s.pop (P.req j).k1) with
        | failedConstraints =>
          simp only [htr] at hs
          injection hs with hs; subst hs
          have hq : ∀ k, release (release (release (release s.queue (P.req j).kb) (P.req j).k0)
              (P.req j).k1) (P.req j).kt k =
              if k ∈ (P.req j).idx then (s.queue k).tail else s.queue k := by
            intro k
            rw [release_apply, hq3]
            simp only [Req.idx, List.mem_cons, List.not_mem_nil, or_false]
            by_cases h1 : k = (P.req j).kt
            · subst h1; simp [n1, n2, n3]
            · simp [h1]
          refine inv_done h j hni _ ?_ ?_ _ _
          · intro k; rw [hq]; split
            · exact .inr rfl
            · exact .inl rfl
          · intro k; rw [hq]; split
            · exact hnt k
            · rename_i hk; exact not_mem_of_waiting h hw hk
        | _ =>
          simp only [htr] at hs
          injection hs with hs; subst hs
          refine ⟨?_, ?_, ?_⟩
          · intro k; simp only [hq3]; split
            · exact (h.sorted k).tail
            · exact h.sorted k
          · intro i
            rw [kind_update]
            by_cases hi : i = j
            · subst hi; simp [Phase.kind, (h.issued i).2 hni]
            · simp only [hi, if_false]; exact h.issued i
          · intro k i hi
            simp only [hq3] at hi ⊢
            rw [kind_update]
            by_cases hij : i = j
            · subst hij
              simp only [if_true, Phase.kind]
              right
              split at hi
              · exact absurd hi (hnt k)
              · rename_i hk
                have hk' : k ∈ (P.req i).idx := by
                  by_contra hc; exact not_mem_of_waiting h hw hc hi
                have hkt : k = (P.req i).kt := by
                  simp only [Req.idx, List.mem_cons, List.not_mem_nil, or_false] at hk'
                  tauto
                subst hkt
                simp only [hk, if_false]
                exact ⟨trivial, trivial, head_of_granted hg hk' hi⟩
            · simp only [hij, if_false]
              split at hi
              · exact .inl (member_tail h hi)
              · rename_i hk; simp only [hk, if_false]; exact h.member k i hi
      · injection hs with hs; subst hs
        exact inv_done h j hni _ (fun k => .inr rfl) hnt _ _
    · cases hs
  | _ => simp [hp] at hs

theorem inv_finish {P : Params I} {s s' : Sys I} {j : ℕ} (h : Inv P s)
    (hs : step P s (.finish j) = some s') : Inv P s' := by
  simp only [step] at hs
  cases hp : s.phase j with
  | evaluating t out =>
    have ha : s.kind j = .active := by unfold Sys.kind; rw [hp]; rfl
    have hni : s.kind j ≠ .idle := by rw [ha]; simp
    simp only [hp] at hs
    have hend : ∀ (pop : ℕ → I) (r : Bool),
        Inv P ⟨pop, release s.queue (P.req j).kt, Function.update s.phase j .done, s.issued, r⟩ :=
      fun pop r => inv_done h j hni _ (release_shrink _ _) (not_mem_release_kt h ha) _ _
    split at hs
    · split at hs
      · injection hs with hs; subst hs; exact hend _ _
      · split at hs
        · injection hs with hs; subst hs
          have hkind : ∀ i, (Sys.mk s.pop s.queue (Function.update s.phase j .recording) s.issued
              s.running).kind i = s.kind i := by
            intro i; rw [kind_update]
            by_cases hi : i = j
            · subst hi; simp [Phase.kind, ha]
            · simp [hi]
          exact ⟨h.sorted, fun i => by rw [hkind]; exact h.issued i,
            fun k i hi => by rw [hkind]; exact h.member k i hi⟩
        · injection hs with hs; subst hs; exact hend _ _
    · injection hs with hs; subst hs; exact hend _ _
  | _ => simp [hp] at hs

theorem inv_recorded {P : Params I} {s s' : Sys I} {j : ℕ} (h : Inv P s)
    (hs : step P s (.recorded j) = some s') : Inv P s' := by
  simp only [step] at hs
  cases hp : s.phase j with
  | recording =>
    have ha : s.kind j = .active := by unfold Sys.kind; rw [hp]; rfl
    simp only [hp] at hs
    injection hs with hs; subst hs
    exact inv_done h j (by rw [ha]; simp) _ (release_shrink _ _) (not_mem_release_kt h ha) _ _
  | _ => simp [hp] at hs

theorem inv_lateIssue {P : Params I} {s : Sys I} (h : Inv P s) : Inv P (lateIssue s) := by
  have hidle : s.kind s.issued = .idle := by
    by_contra hc; exact absurd ((h.issued _).2 hc) (lt_irrefl _)
  refine ⟨h.sorted, ?_, ?_⟩
  · intro i
    unfold lateIssue
    rw [kind_update]
    by_cases hi : i = s.issued
    · subst hi; cases s.running <;> simp [Phase.kind]
    · simp only [hi, if_false]
      rw [← h.issued]; omega
  · intro k i hi
    unfold lateIssue
    rw [kind_update]
    have hij : i ≠ s.issued := by
      rintro rfl
      rcases h.member k _ hi with ⟨h1, _⟩ | ⟨h1, _⟩ <;> rw [hidle] at h1 <;> cases h1
    simp only [hij, if_false]
    exact h.member k i hi

theorem inv_abort {P : Params I} {s : Sys I} (h : Inv P s) :
    Inv P { s with queue := releaseAll s.queue } :=
  ⟨fun k => (h.sorted k).tail, h.issued, fun _ _ hi => .inl (member_tail h hi)⟩

/-- The invariants speak only of the indices of the challenges. -/
theorem inv_late {P : Params I} {lateTrial : ℕ → Outcome I} {s : Sys I} :
    Inv (lateParams P lateTrial) s ↔ Inv P s :=
  ⟨fun h => ⟨h.sorted, h.issued, h.member⟩, fun h => ⟨h.sorted, h.issued, h.member⟩⟩

/-- While the population has not been aborted, the run is one of `DESystem`. -/
structure Base (P : Params I) (pop₀ : ℕ → I) (a : ASys I) : Prop where
  inv : Inv P a.sys
  reach : a.popRunning = true → Reachable P pop₀ a.sys ∧ ∀ j, a.late j = false

theorem reachable_step {P : Params I} {pop₀ : ℕ → I} {s s' : Sys I} {x : Act} (h : Reachable P pop₀ s)
    (hs : step P s x = some s') : Reachable P pop₀ s' := by
  obtain ⟨as, has⟩ := h
  refine ⟨as ++ [x], ?_⟩
  have : ∀ (l : List Act) (w : Sys I), run P w l = some s → run P w (l ++ [x]) = some s' := by
    intro l
    induction l with
    | nil => intro w hw; simp only [run, Option.some.injEq] at hw; subst hw; simp [run, hs]
    | cons b l ih =>
      intro w hw
      simp only [run, List.cons_append] at hw ⊢
      cases hb : step P w b with
      | none => simp [hb] at hw
      | some v => simp only [hb] at hw; exact ih v hw
  exact this as _ has

/-- The possible acts before the abort are those of the run. -/
theorem astep_before {P : Params I} {lateTrial : ℕ → Outcome I} {a a' : ASys I} {x : Act}
    (hp : a.popRunning = true) (hs : astep P lateTrial a (.act x) = some a') :
    ∃ s, step P a.sys x = some s ∧ a' = { a with sys := s } := by
  have hs' : (step P a.sys x).map (fun s => ({ a with sys := s } : ASys I)) = some a' := by
    cases x <;> simp only [astep, hp, if_true] at hs <;> (simp only [hp]; exact hs)
  rw [Option.map_eq_some_iff] at hs'
  obtain ⟨s, h1, h2⟩ := hs'
  exact ⟨s, h1, h2.symm⟩

/-- The cases of an act after the abort. -/
theorem astep_after {P : Params I} {lateTrial : ℕ → Outcome I} {a a' : ASys I} {x : AAct}
    (hp : a.popRunning = false) (hs : astep P lateTrial a x = some a') :
    a'.popRunning = false ∧
    ((a'.late = a.late ∧ a'.sys = { a.sys with queue := releaseAll a.sys.queue }) ∨
      (a'.late = a.late ∧ a'.sys = lateIssue a.sys) ∨
      (∃ j, step (lateParams P lateTrial) a.sys (.grant j) = some a'.sys ∧ x = .act (.grant j) ∧
        a'.late = Function.update a.late j true) ∨
      (∃ j, step P a.sys (.finish j) = some a'.sys ∧ a'.late = a.late) ∨
      (∃ j, step P a.sys (.recorded j) = some a'.sys ∧ a'.late = a.late) ∨
      (step P a.sys .shutdown = some a'.sys ∧ a'.late = a.late)) := by
  cases x with
  | abort => simp only [astep] at hs; injection hs with hs; subst hs; simp
  | act x =>
    cases x with
    | issue => simp [astep, hp] at hs; subst hs; simp
    | grant j =>
      simp only [astep, hp, Bool.false_eq_true, if_false, Option.map_eq_some_iff] at hs
      obtain ⟨s, h1, rfl⟩ := hs
      exact ⟨rfl, .inr (.inr (.inl ⟨j, h1, rfl, rfl⟩))⟩
    | finish j =>
      simp only [astep, Option.map_eq_some_iff] at hs
      obtain ⟨s, h1, rfl⟩ := hs
      exact ⟨hp, .inr (.inr (.inr (.inl ⟨j, h1, rfl⟩)))⟩
    | recorded j =>
      simp only [astep, Option.map_eq_some_iff] at hs
      obtain ⟨s, h1, rfl⟩ := hs
      exact ⟨hp, .inr (.inr (.inr (.inr (.inl ⟨j, h1, rfl⟩))))⟩
    | shutdown =>
      simp only [astep, Option.map_eq_some_iff] at hs
      obtain ⟨s, h1, rfl⟩ := hs
      exact ⟨hp, .inr (.inr (.inr (.inr (.inr ⟨h1, rfl⟩))))⟩

theorem base_step {P : Params I} (hd : Distinct P) {lateTrial : ℕ → Outcome I} {pop₀ : ℕ → I}
    {a a' : ASys I} {x : AAct} (h : Base P pop₀ a) (hs : astep P lateTrial a x = some a') :
    Base P pop₀ a' := by
  cases hp : a.popRunning with
  | true =>
    obtain ⟨hreach, hlate⟩ := h.reach hp
    cases x with
    | abort =>
      simp only [astep] at hs; injection hs with hs; subst hs
      exact ⟨inv_abort h.inv, by simp⟩
    | act x =>
      obtain ⟨s, h1, rfl⟩ := astep_before hp hs
      have hr := reachable_step hreach h1
      exact ⟨(inv_reachable hd hr).1, fun _ => ⟨hr, hlate⟩⟩
  | false =>
    obtain ⟨hp', hcase⟩ := astep_after hp hs
    refine ⟨?_, fun hc => by rw [hp'] at hc; cases hc⟩
    rcases hcase with ⟨_, h1⟩ | ⟨_, h1⟩ | ⟨j, h1, _, _⟩ | ⟨j, h1, _⟩ | ⟨j, h1, _⟩ | ⟨h1, _⟩
    · rw [h1]; exact inv_abort h.inv
    · rw [h1]; exact inv_lateIssue h.inv
    · have hd' : Distinct (lateParams P lateTrial) := hd
      exact inv_late.1 (inv_grant hd' (inv_late.2 h.inv) h1)
    · exact inv_finish h.inv h1
    · exact inv_recorded h.inv h1
    · simp only [step] at h1; injection h1 with h1; rw [← h1]
      exact ⟨h.inv.sorted, h.inv.issued, h.inv.member⟩

theorem arun_induction {P : Params I} {lateTrial : ℕ → Outcome I} (M : ASys I → Prop)
    (hstep : ∀ a x a', M a → astep P lateTrial a x = some a' → M a') (xs : List AAct) (a a' : ASys I)
    (ha : M a) (h : arun P lateTrial a xs = some a') : M a' := by
  induction xs generalizing a with
  | nil => simp only [arun, Option.some.injEq] at h; subst h; exact ha
  | cons x xs ih =>
    simp only [arun] at h
    cases hx : astep P lateTrial a x with
    | none => simp [hx] at h
    | some b => simp only [hx] at h; exact ih b (hstep a x b ha hx) h

theorem base_init (P : Params I) (pop₀ : ℕ → I) : Base P pop₀ (ainit pop₀) :=
  ⟨Inv.init P pop₀, fun _ => ⟨⟨[], rfl⟩, fun _ => rfl⟩⟩

theorem base_run {P : Params I} (hd : Distinct P) {lateTrial : ℕ → Outcome I} {pop₀ : ℕ → I}
    {xs : List AAct} {a : ASys I} (h : arun P lateTrial (ainit pop₀) xs = some a) : Base P pop₀ a :=
  arun_induction (Base P pop₀) (fun _ _ _ h1 h2 => base_step hd h1 h2) xs _ _ (base_init P pop₀) h

/-- What is known of the evaluations under way after the abort. -/
structure Under (P : Params I) (lateTrial : ℕ → Outcome I) (a : ASys I) : Prop where
  target : a.sys.running = true → ∀ j t out, a.sys.phase j = .evaluating t out → a.late j = false →
    a.sys.pop (P.req j).kt = t
  apart : a.sys.running = true → ∀ i j t out t' out', a.sys.phase i = .evaluating t out →
    a.sys.phase j = .evaluating t' out' → a.late i = false → a.late j = false →
    (P.req i).kt = (P.req j).kt → i = j
  lateOut : ∀ j t out, a.sys.phase j = .evaluating t out → a.late j = true → out = lateTrial j

/-- The evaluations under way before an abort. -/
theorem under_reachable {P : Params I} (hd : Distinct P) {lateTrial : ℕ → Outcome I} {pop₀ : ℕ → I}
    {a : ASys I} (h : Reachable P pop₀ a.sys) (hl : ∀ j, a.late j = false) : Under P lateTrial a := by
  obtain ⟨hinv, hr⟩ := inv_reachable hd h
  refine ⟨?_, ?_, ?_⟩
  · intro hrun j t out hp _
    exact target_current hinv (hr hrun) (seq_reachable hd h hrun) hp
  · intro hrun i j t out t' out' hi hj _ _ hk
    refine C26_mutual_exclusion P hd pop₀ a.sys h hrun i j (P.req i).kt ?_ ?_
    · simp [HoldsLock, hi]
    · simp [HoldsLock, hj, hk]
  · intro j _ _ _ hc; rw [hl j] at hc; cases hc

/-- Acts that change no member and begin no early evaluation. -/
theorem under_same {P : Params I} {lateTrial : ℕ → Outcome I} {a a' : ASys I} (h : Under P lateTrial a)
    (hpop : a'.sys.pop = a.sys.pop) (hrun : a'.sys.running = true → a.sys.running = true)
    (hev : ∀ j t out, a'.sys.phase j = .evaluating t out →
      (a.sys.phase j = .evaluating t out ∧ a'.late j = a.late j) ∨ (a'.late j = true ∧ out = lateTrial j)) :
    Under P lateTrial a' := by
  have early : ∀ j t out, a'.sys.phase j = .evaluating t out → a'.late j = false →
      a.sys.phase j = .evaluating t out ∧ a.late j = false := by
    intro j t out hp hl
    rcases hev j t out hp with ⟨h1, h2⟩ | ⟨h1, _⟩
    · exact ⟨h1, by rw [← h2]; exact hl⟩
    · rw [hl] at h1; cases h1
  refine ⟨?_, ?_, ?_⟩
  · intro hr j t out hp hl
    obtain ⟨h1, h2⟩ := early j t out hp hl
    rw [hpop]; exact h.target (hrun hr) j t out h1 h2
  · intro hr i j t out t' out' hi hj hli hlj hk
    obtain ⟨h1, h2⟩ := early i t out hi hli
    obtain ⟨h3, h4⟩ := early j t' out' hj hlj
    exact h.apart (hrun hr) i j t out t' out' h1 h3 h2 h4 hk
  · intro j t out hp hl
    rcases hev j t out hp with ⟨h1, h2⟩ | ⟨_, h1⟩
    · exact h.lateOut j t out h1 (by rw [← h2]; exact hl)
    · exact h1

/-- What a continuing challenge does to the phases. -/
theorem grant_phase {P : Params I} {s s' : Sys I} {j : ℕ} (hs : step P s (.grant j) = some s') :
    s'.pop = s.pop ∧ s'.running = s.running ∧ (∀ i, i ≠ j → s'.phase i = s.phase i) ∧
    s.phase j = .waiting ∧
    ∀ t out, s'.phase j = .evaluating t out → t = s.pop (P.req j).kt ∧ out = (P.req j).trial
      (s.pop (P.req j).kt) (s.pop (P.req j).kb) (s.pop (P.req j).k0) (s.pop (P.req j).k1) ∧
      out ≠ .failedConstraints := by
  simp only [step] at hs
  split at hs
  · rename_i hw
    split at hs
    · split at hs
      · split at hs
        · injection hs with hs; subst hs
          refine ⟨rfl, rfl, fun i hi => by simp [hi], hw, ?_⟩
          simp
        · rename_i hne
          injection hs with hs; subst hs
          refine ⟨rfl, rfl, fun i hi => by simp [hi], hw, ?_⟩
          intro t out hp
          simp only [Function.update_self, Phase.evaluating.injEq] at hp
          exact ⟨hp.1.symm, hp.2.symm, by rw [← hp.2]; exact hne⟩
      · injection hs with hs; subst hs
        refine ⟨rfl, rfl, fun i hi => by simp [hi], hw, ?_⟩
        simp
    · cases hs
  · cases hs

/-- What the end of an evaluation does. -/
theorem finish_phase {P : Params I} {s s' : Sys I} {j : ℕ} (hs : step P s (.finish j) = some s') :
    ∃ t out, s.phase j = .evaluating t out ∧ (∀ i, i ≠ j → s'.phase i = s.phase i) ∧
      (∀ t' out', s'.phase j ≠ .evaluating t' out') ∧ (s'.running = true → s.running = true) ∧
      (s'.pop = s.pop ∨ ∃ c, out = .evaluated c ∧ s.running = true ∧ P.lt c t = true ∧
        s'.pop = Function.update s.pop (P.req j).kt c) := by
  simp only [step] at hs
  split at hs
  · rename_i t out hp
    refine ⟨t, out, hp, ?_⟩
    split at hs
    · rename_i c hrun
      split at hs
      · rename_i hlt
        injection hs with hs; subst hs
        exact ⟨fun i hi => by simp [hi], by simp, fun h => h, .inr ⟨c, rfl, hrun, hlt, rfl⟩⟩
      · split at hs <;> (injection hs with hs; subst hs; refine ⟨fun i hi => by simp [hi], by simp, fun h => h, .inl rfl⟩)
    · injection hs with hs; subst hs
      exact ⟨fun i hi => by simp [hi], by simp, by simp, .inl rfl⟩
  · cases hs

theorem recorded_phase {P : Params I} {s s' : Sys I} {j : ℕ} (hs : step P s (.recorded j) = some s') :
    s'.pop = s.pop ∧ s'.running = s.running ∧ (∀ i, i ≠ j → s'.phase i = s.phase i) ∧
      (∀ t' out', s'.phase j ≠ .evaluating t' out') := by
  simp only [step] at hs
  split at hs
  · injection hs with hs; subst hs
    exact ⟨rfl, rfl, fun i hi => by simp [hi], by simp⟩
  · cases hs

/-- The evaluation function's result for `None` is never taken for an improvement: what the documentation of
`Population` asks of it ("the callable should act accordingly"). It may return `None`, an infinite score, a
negative one, or fail. -/
def NoneLoses (P : Params I) (lateTrial : ℕ → Outcome I) : Prop :=
  ∀ n c, lateTrial n = .evaluated c → ∀ m, P.lt c m = false

theorem under_step {P : Params I} (hd : Distinct P) {lateTrial : ℕ → Outcome I}
    (hl : NoneLoses P lateTrial) {pop₀ : ℕ → I} {a a' : ASys I} {x : AAct} (hb : Base P pop₀ a)
    (h : Under P lateTrial a) (hs : astep P lateTrial a x = some a') :
    Under P lateTrial a' ∧
      ∀ k, a'.sys.pop k = a.sys.pop k ∨ P.lt (a'.sys.pop k) (a.sys.pop k) = true := by
  cases hp : a.popRunning with
  | true =>
    obtain ⟨hreach, hlate⟩ := hb.reach hp
    cases x with
    | abort =>
      simp only [astep] at hs; injection hs with hs; subst hs
      exact ⟨under_same h rfl (fun h => h) (fun j t out hj => .inl ⟨hj, rfl⟩), fun _ => .inl rfl⟩
    | act x =>
      obtain ⟨s, h1, rfl⟩ := astep_before hp hs
      exact ⟨under_reachable hd (reachable_step hreach h1) hlate,
        fun k => C29_step_improves P hd pop₀ a.sys s x hreach h1 k⟩
  | false =>
    obtain ⟨hp', hcase⟩ := astep_after hp hs
    rcases hcase with ⟨hla, h1⟩ | ⟨hla, h1⟩ | ⟨j, h1, _, hla⟩ | ⟨j, h1, hla⟩ | ⟨j, h1, hla⟩ | ⟨h1, hla⟩
    · refine ⟨under_same h (by rw [h1]) (by rw [h1]; exact fun h => h) ?_, fun k => .inl (by rw [h1])⟩
      intro j t out hj
      rw [h1] at hj
      exact .inl ⟨hj, by rw [hla]⟩
    · refine ⟨under_same h (by rw [h1]; rfl) (by rw [h1]; exact fun h => h) ?_,
        fun k => .inl (by rw [h1]; rfl)⟩
      intro j t out hj
      rw [h1] at hj
      unfold lateIssue at hj
      by_cases hji : j = a.sys.issued
      · subst hji
        simp only [Function.update_self] at hj
        split at hj <;> cases hj
      · simp only [Function.update_of_ne hji] at hj
        exact .inl ⟨hj, by rw [hla]⟩
    · obtain ⟨g1, g2, g3, g4, g5⟩ := grant_phase h1
      refine ⟨under_same h g1 (by rw [g2]; exact fun h => h) ?_, fun k => .inl (by rw [g1])⟩
      intro i t out hi
      by_cases hij : i = j
      · subst hij
        obtain ⟨_, e2, e3⟩ := g5 t out hi
        right
        refine ⟨by rw [hla]; simp, ?_⟩
        simp only [lateParams] at e2
        split at e2
        · exact absurd e2 e3
        · exact e2
      · left
        rw [g3 i hij] at hi
        exact ⟨hi, by rw [hla, Function.update_of_ne hij]⟩
    · obtain ⟨t, out, g1, g2, g3, g4, g5⟩ := finish_phase h1
      have hev : ∀ i t out, a'.sys.phase i = .evaluating t out →
          i ≠ j ∧ a.sys.phase i = .evaluating t out ∧ a'.late i = a.late i := by
        intro i t out hi
        by_cases hij : i = j
        · subst hij; exact absurd hi (g3 t out)
        · rw [g2 i hij] at hi
          exact ⟨hij, hi, by rw [hla]⟩
      rcases g5 with g5 | ⟨c, g5, g6, g7, g8⟩
      · exact ⟨under_same h g5 g4 (fun i t out hi => .inl (hev i t out hi).2), fun k => .inl (by rw [g5])⟩
      · -- a replacement: the evaluation was begun before the abort
        have hearly : a.late j = false := by
          by_contra hc
          rw [Bool.not_eq_false] at hc
          have := h.lateOut j t out g1 hc
          rw [g5] at this
          have := hl j c this.symm t
          rw [g7] at this; cases this
        have ht := h.target g6 j t out g1 hearly
        refine ⟨⟨?_, ?_, ?_⟩, ?_⟩
        · intro _ i t' out' hi hli
          obtain ⟨e1, e2, e3⟩ := hev i t' out' hi
          rw [e3] at hli
          have hk : (P.req i).kt ≠ (P.req j).kt := fun hk =>
            e1 (h.apart g6 i j t' out' t out e2 g1 hli hearly hk)
          rw [g8, Function.update_of_ne hk]
          exact h.target g6 i t' out' e2 hli
        · intro _ i i' t1 o1 t2 o2 hi hi' hli hli' hk
          obtain ⟨_, e2, e3⟩ := hev i t1 o1 hi
          obtain ⟨_, e5, e6⟩ := hev i' t2 o2 hi'
          rw [e3] at hli; rw [e6] at hli'
          exact h.apart g6 i i' t1 o1 t2 o2 e2 e5 hli hli' hk
        · intro i t' out' hi hli
          obtain ⟨_, e2, e3⟩ := hev i t' out' hi
          rw [e3] at hli
          exact h.lateOut i t' out' e2 hli
        · intro k
          by_cases hk : k = (P.req j).kt
          · subst hk; right; rw [g8]; simp [ht, g7]
          · left; rw [g8]; simp [hk]
    · obtain ⟨g1, g2, g3, g4⟩ := recorded_phase h1
      refine ⟨under_same h g1 (by rw [g2]; exact fun h => h) ?_, fun k => .inl (by rw [g1])⟩
      intro i t out hi
      by_cases hij : i = j
      · subst hij; exact absurd hi (g4 t out)
      · rw [g3 i hij] at hi; exact .inl ⟨hi, by rw [hla]⟩
    · simp only [step] at h1; injection h1 with h1
      refine ⟨under_same h (by rw [← h1]) (by rw [← h1]; simp) ?_, fun k => .inl (by rw [← h1])⟩
      intro i t out hi
      rw [← h1] at hi
      exact .inl ⟨hi, by rw [hla]⟩

theorem under_init (P : Params I) (lateTrial : ℕ → Outcome I) (pop₀ : ℕ → I) :
    Under P lateTrial (ainit pop₀) :=
  ⟨fun _ j t out h => by simp [ainit, init] at h, fun _ i j t out t' out' h => by simp [ainit, init] at h,
    fun j t out h => by simp [ainit, init] at h⟩

/-! ## C76 -/

/-- C76: at every step of a run, before and after an abort of the population, each member stays or is replaced
by a strictly better one. -/
theorem C76_step_improves (P : Params I) (hd : Distinct P) (lateTrial : ℕ → Outcome I)
    (hl : NoneLoses P lateTrial) (pop₀ : ℕ → I) (xs : List AAct) (a a' : ASys I) (x : AAct)
    (h : arun P lateTrial (ainit pop₀) xs = some a) (hs : astep P lateTrial a x = some a') (k : ℕ) :
    a'.sys.pop k = a.sys.pop k ∨ P.lt (a'.sys.pop k) (a.sys.pop k) = true := by
  have := arun_induction (P := P) (lateTrial := lateTrial)
    (fun a => Base P pop₀ a ∧ Under P lateTrial a)
    (fun b y b' hb hs => ⟨base_step hd hb.1 hs, (under_step hd hl hb.1 hb.2 hs).1⟩) xs _ _
    ⟨base_init P pop₀, under_init P lateTrial pop₀⟩ h
  exact (under_step hd hl this.1 this.2 hs).2 k

/-- C76: hence over a whole run with aborts, each member is what it was or a strictly better one. -/
theorem C76_run_improves (P : Params I) (hd : Distinct P)
    (htrans : ∀ a b c, P.lt a b = true → P.lt b c = true → P.lt a c = true) (lateTrial : ℕ → Outcome I)
    (hl : NoneLoses P lateTrial) (pop₀ : ℕ → I) (xs : List AAct) (a : ASys I)
    (h : arun P lateTrial (ainit pop₀) xs = some a) (k : ℕ) :
    a.sys.pop k = pop₀ k ∨ P.lt (a.sys.pop k) (pop₀ k) = true := by
  have := arun_induction (P := P) (lateTrial := lateTrial)
    (fun a => (Base P pop₀ a ∧ Under P lateTrial a) ∧
      (a.sys.pop k = pop₀ k ∨ P.lt (a.sys.pop k) (pop₀ k) = true))
    (fun b y b' hb hs => by
      obtain ⟨h1, h2⟩ := under_step hd hl hb.1.1 hb.1.2 hs
      refine ⟨⟨base_step hd hb.1.1 hs, h1⟩, ?_⟩
      rcases h2 k with e | e
      · rw [e]; exact hb.2
      · rcases hb.2 with e2 | e2
        · right; rw [← e2]; exact e
        · right; exact htrans _ _ _ e e2) xs _ _
    ⟨⟨base_init P pop₀, under_init P lateTrial pop₀⟩, .inl rfl⟩ h
  exact this.2

/-- Acts by which an already issued challenge makes progress. -/
def AAct.isProgress : AAct → Bool
  | .act x => x.isProgress
  | .abort => false

/-- C76: no challenge is left hanging by an abort: in every state in which an issued challenge has not returned,
some challenge can go on. -/
theorem C76_no_deadlock (P : Params I) (hd : Distinct P) (lateTrial : ℕ → Outcome I) (pop₀ : ℕ → I)
    (xs : List AAct) (a : ASys I) (h : arun P lateTrial (ainit pop₀) xs = some a) (j : ℕ)
    (hj : j < a.sys.issued) (hnd : a.sys.phase j ≠ .done) :
    ∃ x a', x.isProgress = true ∧ astep P lateTrial a x = some a' := by
  have hb := base_run hd h
  cases hp : a.popRunning with
  | true =>
    obtain ⟨x, s', hx, hs⟩ := progress_of_inv hb.inv j hj hnd
    refine ⟨.act x, { a with sys := s' }, hx, ?_⟩
    cases x <;> simp [astep, hp, hs]
  | false =>
    obtain ⟨x, s', hx, hs⟩ := progress_of_inv (inv_late (lateTrial := lateTrial).2 hb.inv) j hj hnd
    cases x with
    | grant i => exact ⟨.act (.grant i), _, hx, by simp only [astep, hp, hs]; rfl⟩
    | finish i =>
      have : step (lateParams P lateTrial) a.sys (.finish i) = step P a.sys (.finish i) := rfl
      rw [this] at hs
      exact ⟨.act (.finish i), _, hx, by simp only [astep, hs]; rfl⟩
    | recorded i =>
      have : step (lateParams P lateTrial) a.sys (.recorded i) = step P a.sys (.recorded i) := rfl
      rw [this] at hs
      exact ⟨.act (.recorded i), _, hx, by simp only [astep, hs]; rfl⟩
    | issue => simp [Act.isProgress] at hx
    | shutdown => simp [Act.isProgress] at hx

theorem astep_count {P : Params I} {lateTrial : ℕ → Outcome I} {a a' : ASys I} {x : AAct}
    (hinv : Inv P a.sys) (hs : astep P lateTrial a x = some a') :
    (if x.isProgress then 1 else 0) + total a'.sys.phase a'.sys.issued + 3 * a.sys.issued ≤
      total a.sys.phase a.sys.issued + 3 * a'.sys.issued := by
  cases x with
  | abort => simp only [astep] at hs; injection hs with hs; subst hs; simp [AAct.isProgress]
  | act x =>
    cases hp : a.popRunning with
    | true =>
      obtain ⟨s, h1, rfl⟩ := astep_before hp hs
      exact step_count hinv h1
    | false =>
      cases x with
      | issue =>
        simp only [astep, hp, Bool.false_eq_true, if_false, Option.some.injEq] at hs
        subst hs
        simp only [lateIssue, AAct.isProgress, Act.isProgress, total, Function.update_self,
          total_update_ge _ _ _ _ (le_refl _)]
        cases a.sys.running <;> simp [Phase.rank] <;> omega
      | grant j =>
        simp only [astep, hp, Bool.false_eq_true, if_false, Option.map_eq_some_iff] at hs
        obtain ⟨s, h1, rfl⟩ := hs
        exact step_count (inv_late.2 hinv) h1
      | finish j =>
        simp only [astep, Option.map_eq_some_iff] at hs
        obtain ⟨s, h1, rfl⟩ := hs
        exact step_count hinv h1
      | recorded j =>
        simp only [astep, Option.map_eq_some_iff] at hs
        obtain ⟨s, h1, rfl⟩ := hs
        exact step_count hinv h1
      | shutdown =>
        simp only [astep, Option.map_eq_some_iff] at hs
        obtain ⟨s, h1, rfl⟩ := hs
        exact step_count hinv h1

/-- C76: and all challenges return after boundedly many acts: every execution has at most three acts of progress
per challenge issued. -/
theorem C76_bounded (P : Params I) (hd : Distinct P) (lateTrial : ℕ → Outcome I) (pop₀ : ℕ → I)
    (xs : List AAct) (a : ASys I) (h : arun P lateTrial (ainit pop₀) xs = some a) :
    xs.countP AAct.isProgress ≤ 3 * a.sys.issued := by
  have key : ∀ (xs : List AAct) (b : ASys I), Base P pop₀ b → arun P lateTrial b xs = some a →
      xs.countP AAct.isProgress + total a.sys.phase a.sys.issued + 3 * b.sys.issued ≤
        total b.sys.phase b.sys.issued + 3 * a.sys.issued := by
    intro xs
    induction xs with
    | nil => intro b _ hb; simp only [arun, Option.some.injEq] at hb; subst hb; simp
    | cons x xs ih =>
      intro b hB hb
      simp only [arun] at hb
      cases hx : astep P lateTrial b x with
      | none => simp [hx] at hb
      | some c =>
        simp only [hx] at hb
        have h1 := ih c (base_step hd hB hx) hb
        have h2 := astep_count hB.inv hx
        rw [List.countP_cons]
        omega
  have := key xs _ (base_init P pop₀) h
  simp [ainit, init, total] at this
  omega

/-- C76: after an abort the evaluation function is not given parameter values any more: what comes of an
evaluation that begins then is what it gives for `None`. -/
theorem C76_no_values (P : Params I) (lateTrial : ℕ → Outcome I) (a a' : ASys I) (x : AAct)
    (hp : a.popRunning = false) (hs : astep P lateTrial a x = some a') (j : ℕ) (t : I) (out : Outcome I)
    (hnew : a'.sys.phase j = .evaluating t out) (hold : a.sys.phase j ≠ .evaluating t out) :
    out = lateTrial j ∧ a'.late j = true := by
  obtain ⟨_, hcase⟩ := astep_after hp hs
  rcases hcase with ⟨hla, h1⟩ | ⟨hla, h1⟩ | ⟨i, h1, _, hla⟩ | ⟨i, h1, hla⟩ | ⟨i, h1, hla⟩ | ⟨h1, hla⟩
  · rw [h1] at hnew; exact absurd hnew hold
  · rw [h1] at hnew
    unfold lateIssue at hnew
    by_cases hji : j = a.sys.issued
    · subst hji
      simp only [Function.update_self] at hnew
      split at hnew <;> cases hnew
    · simp only [Function.update_of_ne hji] at hnew
      exact absurd hnew hold
  · obtain ⟨g1, g2, g3, g4, g5⟩ := grant_phase h1
    by_cases hij : j = i
    · subst hij
      obtain ⟨_, e2, e3⟩ := g5 t out hnew
      refine ⟨?_, by rw [hla]; simp⟩
      simp only [lateParams] at e2
      split at e2
      · exact absurd e2 e3
      · exact e2
    · rw [g3 j hij] at hnew; exact absurd hnew hold
  · obtain ⟨_, _, _, g2, g3, _, _⟩ := finish_phase h1
    by_cases hij : j = i
    · subst hij; exact absurd hnew (g3 t out)
    · rw [g2 j hij] at hnew; exact absurd hnew hold
  · obtain ⟨_, _, g3, g4⟩ := recorded_phase h1
    by_cases hij : j = i
    · subst hij; exact absurd hnew (g4 t out)
    · rw [g3 j hij] at hnew; exact absurd hnew hold
  · simp only [step] at h1; injection h1 with h1
    rw [← h1] at hnew; exact absurd hnew hold

/-- C76: after an abort no lock is requested any more, and a challenge begun then need not wait for any. -/
theorem C76_lock_at_once (P : Params I) (hd : Distinct P) (lateTrial : ℕ → Outcome I) (pop₀ : ℕ → I)
    (xs : List AAct) (a a' : ASys I) (h : arun P lateTrial (ainit pop₀) xs = some a)
    (hp : a.popRunning = false) (hs : astep P lateTrial a (.act .issue) = some a') :
    a'.sys.queue = a.sys.queue ∧ (a.sys.running = true →
      a'.sys.phase a.sys.issued = .waiting ∧ granted P a'.sys a.sys.issued = true) := by
  have hb := base_run hd h
  simp only [astep, hp, Bool.false_eq_true, if_false, Option.some.injEq] at hs
  subst hs
  refine ⟨rfl, fun hrun => ⟨by simp [lateIssue, hrun], ?_⟩⟩
  unfold granted
  rw [List.all_eq_true]
  intro k _
  simp only [Bool.not_eq_true', List.contains_eq_mem, decide_eq_false_iff_not, lateIssue]
  intro hm
  have hm' := List.mem_of_mem_tail hm
  have hidle : a.sys.kind a.sys.issued = .idle := by
    by_contra hc; exact absurd ((hb.inv.issued _).2 hc) (lt_irrefl _)
  rcases hb.inv.member k _ hm' with ⟨h1, _⟩ | ⟨h1, _⟩ <;> rw [hidle] at h1 <;> cases h1

/-- C76: once the run is shut down as well (as the Enter key does after aborting the population), no member
changes any more, and no evaluation begins. -/
theorem C76_frozen (P : Params I) (lateTrial : ℕ → Outcome I) (a a' : ASys I) (x : AAct)
    (hrun : a.sys.running = false) (hs : astep P lateTrial a x = some a') :
    a'.sys.pop = a.sys.pop ∧ a'.sys.running = false ∧
      ∀ j t out, a'.sys.phase j = .evaluating t out → a.sys.phase j = .evaluating t out := by
  cases x with
  | abort => simp only [astep] at hs; injection hs with hs; subst hs; exact ⟨rfl, hrun, fun _ _ _ h => h⟩
  | act x =>
    cases hp : a.popRunning with
    | true =>
      obtain ⟨s, h1, rfl⟩ := astep_before hp hs
      exact C35_frozen P a.sys s x hrun h1
    | false =>
      cases x with
      | issue =>
        simp only [astep, hp, Bool.false_eq_true, if_false, Option.some.injEq] at hs
        subst hs
        refine ⟨rfl, hrun, ?_⟩
        intro j t out hj
        by_cases hji : j = a.sys.issued
        · subst hji; simp [lateIssue, hrun] at hj
        · simpa [lateIssue, hji] using hj
      | grant j =>
        simp only [astep, hp, Bool.false_eq_true, if_false, Option.map_eq_some_iff] at hs
        obtain ⟨s, h1, rfl⟩ := hs
        exact C35_frozen _ a.sys s _ hrun h1
      | finish j =>
        simp only [astep, Option.map_eq_some_iff] at hs
        obtain ⟨s, h1, rfl⟩ := hs
        exact C35_frozen _ a.sys s _ hrun h1
      | recorded j =>
        simp only [astep, Option.map_eq_some_iff] at hs
        obtain ⟨s, h1, rfl⟩ := hs
        exact C35_frozen _ a.sys s _ hrun h1
      | shutdown =>
        simp only [astep, Option.map_eq_some_iff] at hs
        obtain ⟨s, h1, rfl⟩ := hs
        exact C35_frozen _ a.sys s _ hrun h1

/-- C76: an evaluation function that fails (or gives a negative score) for `None` also ends the run, with the
first evaluation begun after the abort that ends. -/
theorem C76_failing_for_none_stops (P : Params I) (hd : Distinct P) (lateTrial : ℕ → Outcome I)
    (hf : ∀ n, lateTrial n = .fatal) (pop₀ : ℕ → I) (xs : List AAct) (a a' : ASys I)
    (h : arun P lateTrial (ainit pop₀) xs = some a) (j : ℕ) (hj : a.late j = true)
    (hs : astep P lateTrial a (.act (.finish j)) = some a') :
    a'.sys.running = false ∧ a'.sys.pop = a.sys.pop := by
  have hl : NoneLoses P lateTrial := fun n c hc => by rw [hf n] at hc; cases hc
  have hU := (arun_induction (P := P) (lateTrial := lateTrial)
    (fun a => Base P pop₀ a ∧ Under P lateTrial a)
    (fun b y b' hb hs => ⟨base_step hd hb.1 hs, (under_step hd hl hb.1 hb.2 hs).1⟩) xs _ _
    ⟨base_init P pop₀, under_init P lateTrial pop₀⟩ h).2
  simp only [astep, Option.map_eq_some_iff] at hs
  obtain ⟨s, h1, rfl⟩ := hs
  obtain ⟨t, out, g1, _⟩ := finish_phase h1
  have hout : out = .fatal := by rw [hU.lateOut j t out g1 hj, hf]
  obtain ⟨s', e1, e2, e3, _⟩ := C35_fatal_stops P a.sys j t out g1 (.inl hout)
  rw [h1] at e1
  injection e1 with e1
  subst e1
  exact ⟨e2, e3⟩

/-! ## Examples -/

/-- Four challenges on the same target, member values being scores; the challenger's score is given. -/
def exP : Params ℕ where
  lt a b := decide (a < b)
  xSSE := false
  req j := ⟨0, 1, 2, 3, fun _ _ _ _ => .evaluated (5 + j)⟩

example : Distinct exP := fun _ => by simp [exP, Req.idx]

/-- What is seen of a state. -/
def look (a : ASys ℕ) : List ℕ × List ℕ × ℕ × Bool × Bool :=
  ([a.sys.pop 0, a.sys.pop 1], a.sys.queue 0, a.sys.issued, a.sys.running, a.popRunning)

/-- An abort while challenge 0 is evaluated and 1 and 2 wait: 1 goes on before 0 has ended, evaluated with
`None`, which fails and shuts the run down. -/
example : (arun exP (fun _ => .fatal) (ainit fun _ => 10)
    [.act .issue, .act .issue, .act .issue, .act (.grant 0), .abort, .act (.grant 1), .act (.finish 0),
      .act .issue, .act (.grant 2), .act (.finish 1), .act (.grant 3), .act (.finish 2)]).map look =
    some ([5, 10], [], 4, false, false) := by decide +kernel

/-- Non-vacuity of `NoneLoses` with scores: the result is worse than everything. -/
example : NoneLoses { exP with lt := fun a b => decide (a < b ∧ a < 100) } (fun _ => .evaluated 100) := by
  intro n c hc m
  injection hc with hc
  subst hc
  simp

/-- C76, why the evaluation function must act accordingly: if it gives a usable score for `None`, a member can
be replaced by a worse one, since the target of a challenge begun after the abort is not locked. Challenge 0
has brought 5 when challenge 1, which began when the member was 10, brings 7. -/
theorem C76_usable_for_none : ∃ (xs : List AAct) (a a' : ASys ℕ),
    arun exP (fun _ => .evaluated 7) (ainit fun _ => 10) xs = some a ∧
    astep exP (fun _ => .evaluated 7) a (.act (.finish 1)) = some a' ∧
    a.sys.pop 0 = 5 ∧ a'.sys.pop 0 = 7 :=
  ⟨[.act .issue, .act .issue, .act (.grant 0), .abort, .act (.grant 1), .act (.finish 0)], _, _, rfl, rfl,
    rfl, rfl⟩

/-- C76: a challenge begun after the run has been shut down returns at once, whether the population was aborted or not. -/
theorem C76_begun_after_shutdown (P : Params I) (lateTrial : ℕ → Outcome I) (a a' : ASys I) (hrun : a.sys.running = false)
    (hs : astep P lateTrial a (.act .issue) = some a') :
    a'.sys.issued = a.sys.issued + 1 ∧ a'.sys.phase a.sys.issued = .done ∧
      ∀ j, j ≠ a.sys.issued → a'.sys.phase j = a.sys.phase j := by
  unfold astep at hs
  cases hp : a.popRunning <;> simp only [hp, Bool.false_eq_true, if_false, if_true] at hs
  · injection hs with hs
    subst hs
    refine ⟨rfl, by simp [lateIssue, hrun], fun j hj => by simp [lateIssue, Function.update_of_ne hj]⟩
  · simp only [step, hrun, Bool.false_eq_true, if_false, Option.map_some, Option.some.injEq] at hs
    subst hs
    exact ⟨rfl, Function.update_self .., fun j hj => Function.update_of_ne hj ..⟩

/-- Three challenges issued, one granted, then an abort. -/
def exActs : List AAct := [.act .issue, .act .issue, .act .issue, .act (.grant 0), .abort]

/-- The state after these. -/
def exA : ASys ℕ := (arun exP (fun _ => .fatal) (ainit fun _ => 10) exActs).get (by decide +kernel)

theorem exA_run : arun exP (fun _ => .fatal) (ainit fun _ => 10) exActs = some exA := eq_get _

theorem exP_distinct : Distinct exP := fun _ => by simp [exP, Req.idx]

theorem exP_none : NoneLoses exP (fun _ => .fatal) := fun _ _ h => by cases h

example := C76_step_improves exP exP_distinct (fun _ => .fatal) exP_none (fun _ => 10) exActs exA _
  (.act (.finish 0)) exA_run (eq_get (by decide +kernel)) 0

example := C76_run_improves exP exP_distinct (fun a b c h1 h2 => by simp [exP] at *; omega) (fun _ => .fatal)
  exP_none (fun _ => 10) exActs exA exA_run 0

example := C76_no_deadlock exP exP_distinct (fun _ => .fatal) (fun _ => 10) exActs exA exA_run 1
  (by decide +kernel) (by
    have : exA.sys.phase 1 = .waiting := by with_unfolding_all rfl
    simp [this])

example := C76_bounded exP exP_distinct (fun _ => .fatal) (fun _ => 10) exActs exA exA_run

/-- Challenge 1 gets its locks after the abort. -/
example := C76_no_values exP (fun _ => .fatal) exA
  ((astep exP (fun _ => .fatal) exA (.act (.grant 1))).get (by decide +kernel)) (.act (.grant 1))
  (by decide +kernel) (eq_get _) 1 10 .fatal (by with_unfolding_all rfl) (by
    have : exA.sys.phase 1 = .waiting := by with_unfolding_all rfl
    simp [this])

example := C76_lock_at_once exP exP_distinct (fun _ => .fatal) (fun _ => 10) exActs exA _ exA_run
  (by decide +kernel) (eq_get (by decide +kernel))

/-- After the fatal end of challenge 1, challenge 0 ends: nothing changes any more. -/
example := C76_frozen exP (fun _ => .fatal)
  ((arun exP (fun _ => .fatal) exA [.act (.grant 1), .act (.finish 1)]).get (by decide +kernel)) _
  (.act (.finish 0)) (by decide +kernel) (eq_get (by decide +kernel))

/-- Aborted, then shut down, then another challenge. -/
example := C76_begun_after_shutdown exP (fun _ => .evaluated 7)
  { sys := { init fun _ => 10 with running := false }, popRunning := false, late := fun _ => false } _ rfl rfl

end AbortRun
end Ade
