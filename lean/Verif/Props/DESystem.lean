import Verif.Lemmas.Cases
import Verif.Lemmas.DESerial

/-!
# Properties C26-C29, C35: concurrent challenges

All theorems quantify over every population, every sequence of challenges with four distinct indices,
every trial function (mutation, random draws, evaluator) and every interleaving (list of acts).
-/

set_option autoImplicit false

namespace Ade
namespace DESystem

variable {I : Type}

/-! ## C26 -/

/-- Challenge `j` holds the lock of index `k`: it has been granted its locks and has not released that
of `k` yet.  A challenge that is evaluating or recording has only its target left. -/
def HoldsLock (P : Params I) (s : Sys I) (j k : ℕ) : Prop :=
  match s.phase j with
  | .waiting => granted P s j = true ∧ k ∈ [(P.req j).kt, (P.req j).kb, (P.req j).k0, (P.req j).k1]
  | .evaluating _ _ => k = (P.req j).kt
  | .recording => k = (P.req j).kt
  | _ => False

/-- C26: while the run is not shut down, no two challenges hold the lock of the same index. -/
theorem C26_mutual_exclusion (P : Params I) (hd : Distinct P) (pop₀ : ℕ → I) (s : Sys I)
    (h : Reachable P pop₀ s) (hrun : s.running = true) (i j k : ℕ)
    (hi : HoldsLock P s i k) (hj : HoldsLock P s j k) : i = j := by
  obtain ⟨hinv, hr⟩ := inv_reachable hd h
  have hR := hr hrun
  have key : ∀ i, HoldsLock P s i k → (s.queue k).head? = some i := by
    intro i hi
    unfold HoldsLock at hi
    cases hp : s.phase i <;> simp only [hp] at hi
    · exact heads_of_granted hR (by simp [Sys.kind, hp, Phase.kind]) hi.1 k hi.2
    · rw [hi]; exact hR.holds i (by simp [Sys.kind, hp, Phase.kind])
    · rw [hi]; exact hR.holds i (by simp [Sys.kind, hp, Phase.kind])
  exact Option.some.inj ((key i hi).symm.trans (key j hj))

/-- C26: in particular, what a challenge reads when it is granted its locks (target, base, two others)
is not the target of any other challenge in progress. -/
theorem C26_reads_no_target_in_progress (P : Params I) (hd : Distinct P) (pop₀ : ℕ → I)
    (s s' : Sys I) (h : Reachable P pop₀ s) (hrun : s.running = true) (j : ℕ)
    (hs : step P s (.grant j) = some s') (i : ℕ) (hij : i ≠ j)
    (hi : (∃ t o, s.phase i = .evaluating t o) ∨ s.phase i = .recording) :
    (P.req i).kt ∉ [(P.req j).kt, (P.req j).kb, (P.req j).k0, (P.req j).k1] := by
  intro hmem
  apply hij
  have hj : HoldsLock P s j (P.req i).kt := by
    unfold HoldsLock
    simp only [step] at hs
    cases hp : s.phase j <;> simp only [hp] at hs ⊢ <;> try contradiction
    split at hs
    · rename_i hg; exact ⟨hg, hmem⟩
    · cases hs
  have hi' : HoldsLock P s i (P.req i).kt := by
    unfold HoldsLock
    rcases hi with ⟨t, o, hi⟩ | hi <;> simp [hi]
  exact C26_mutual_exclusion P hd pop₀ s h hrun i j _ hi' hj

/-! ## C27 -/

/-- Acts by which an already issued challenge makes progress. -/
def Act.isProgress : Act → Bool
  | .grant _ => true
  | .finish _ => true
  | .recorded _ => true
  | _ => false

/-- Progress is possible in every state with the invariants of the locks. -/
theorem progress_of_inv {P : Params I} {s : Sys I} (hinv : Inv P s) (j : ℕ) (hj : j < s.issued)
    (hnd : s.phase j ≠ .done) : ∃ a s', a.isProgress = true ∧ step P s a = some s' := by
  -- an active challenge can always go on
  by_cases hact : ∃ i, s.kind i = .active
  · obtain ⟨i, hi⟩ := hact
    cases hp : s.phase i with
    | evaluating t out =>
      refine ⟨.finish i, ?_⟩
      simp only [step, hp, Act.isProgress, true_and]
      split
      · split
        · exact ⟨_, rfl⟩
        · split <;> exact ⟨_, rfl⟩
      · exact ⟨_, rfl⟩
    | recording => exact ⟨.recorded i, by simp [step, hp, Act.isProgress]⟩
    | _ => simp [Sys.kind, hp, Phase.kind] at hi
  · -- otherwise the lowest waiting challenge has all its locks
    have hwait : ∃ i, s.kind i = .waiting := by
      refine ⟨j, ?_⟩
      have h1 := (hinv.issued j).1 hj
      have h2 : s.kind j ≠ .active := fun hc => hact ⟨j, hc⟩
      cases hp : s.phase j <;> simp_all [Sys.kind, Phase.kind]
    classical
    obtain ⟨hw, hmin⟩ := And.intro (Nat.find_spec hwait) (fun i hi => Nat.find_min hwait (m := i) hi)
    generalize Nat.find hwait = m at hw hmin
    have hg : granted P s m = true := by
      unfold granted
      rw [List.all_eq_true]
      intro k _
      simp only [Bool.not_eq_true', List.contains_eq_mem, decide_eq_false_iff_not]
      intro hm
      -- the head of that queue would be an earlier unfinished challenge
      cases hq : s.queue k with
      | nil => simp [hq] at hm
      | cons a l =>
        have ha : a ∈ s.queue k := by simp [hq]
        have hlt : a < m := by
          have hs := hinv.sorted k
          rw [hq] at hs hm
          exact (List.pairwise_cons.1 hs).1 m hm
        rcases hinv.member k a ha with ⟨h1, _⟩ | ⟨h1, _⟩
        · exact hmin a hlt h1
        · exact hact ⟨a, h1⟩
    have hp : s.phase m = .waiting := by
      cases hp : s.phase m <;> simp_all [Sys.kind, Phase.kind]
    refine ⟨.grant m, ?_⟩
    simp only [step, hp, hg, Act.isProgress, true_and, if_true]
    split
    · split <;> exact ⟨_, rfl⟩
    · exact ⟨_, rfl⟩

/-- C27: in every reachable state, running or shut down, in which an issued challenge has not returned,
some challenge can make progress. -/
theorem C27_no_deadlock (P : Params I) (hd : Distinct P) (pop₀ : ℕ → I) (s : Sys I)
    (h : Reachable P pop₀ s) (j : ℕ) (hj : j < s.issued) (hnd : s.phase j ≠ .done) :
    ∃ a s', a.isProgress = true ∧ step P s a = some s' :=
  progress_of_inv (inv_reachable hd h).1 j hj hnd

/-- What one act does to the sum of the ranks. -/
theorem step_count_of_idle {P : Params I} {s t : Sys I} {a : Act} (hlt : ∀ j, s.phase j ≠ .idle → j < s.issued)
    (ha : step P s a = some t) :
    (if a.isProgress then 1 else 0) + total t.phase t.issued + 3 * s.issued ≤
      total s.phase s.issued + 3 * t.issued := by
  cases a with
  | issue =>
    simp only [step] at ha
    split at ha <;> (injection ha with ha; subst ha)
    · simp only [Act.isProgress, total, Function.update_self, Phase.rank,
        total_update_ge _ _ _ _ (le_refl _)]; simp; omega
    · simp only [Act.isProgress, total, Function.update_self, Phase.rank,
        total_update_ge _ _ _ _ (le_refl _)]; simp; omega
  | grant j =>
    simp only [step] at ha
    cases hp : s.phase j <;> simp only [hp] at ha <;> try contradiction
    have hj := hlt j (by simp [hp])
    have hu : ∀ p, total (Function.update s.phase j p) s.issued + 3 =
        total s.phase s.issued + p.rank := by
      intro p; have := total_update_lt s.phase j p s.issued hj
      rw [hp] at this; exact this
    split at ha
    · split at ha
      · split at ha <;> (injection ha with ha; subst ha)
        · have := hu .done; simp [Act.isProgress, Phase.rank] at *; omega
        · rename_i out _
          have := hu (.evaluating (s.pop (P.req j).kt) ((P.req j).trial (s.pop (P.req j).kt)
            (s.pop (P.req j).kb) (s.pop (P.req j).k0) (s.pop (P.req j).k1)))
          simp [Act.isProgress, Phase.rank] at *; omega
      · injection ha with ha; subst ha
        have := hu .done; simp [Act.isProgress, Phase.rank] at *; omega
    · cases ha
  | finish j =>
    simp only [step] at ha
    cases hp : s.phase j <;> simp only [hp] at ha <;> try contradiction
    have hj := hlt j (by simp [hp])
    have hu : ∀ p, total (Function.update s.phase j p) s.issued + 2 =
        total s.phase s.issued + p.rank := by
      intro p; have := total_update_lt s.phase j p s.issued hj
      rw [hp] at this; exact this
    have h1 := hu .done
    have h2 := hu .recording
    split at ha
    · split at ha
      · injection ha with ha; subst ha; simp [Act.isProgress, Phase.rank] at *; omega
      · split at ha <;> (injection ha with ha; subst ha)
        · simp [Act.isProgress, Phase.rank] at *; omega
        · simp [Act.isProgress, Phase.rank] at *; omega
    · injection ha with ha; subst ha; simp [Act.isProgress, Phase.rank] at *; omega
  | recorded j =>
    simp only [step] at ha
    cases hp : s.phase j <;> simp only [hp] at ha <;> try contradiction
    have hj := hlt j (by simp [hp])
    have hu := total_update_lt s.phase j .done s.issued hj
    injection ha with ha; subst ha
    rw [hp] at hu
    simp [Act.isProgress, Phase.rank] at *; omega
  | shutdown =>
    simp only [step] at ha
    injection ha with ha; subst ha
    simp [Act.isProgress]

theorem step_count {P : Params I} {s t : Sys I} {a : Act} (hinv : Inv P s) (ha : step P s a = some t) :
    (if a.isProgress then 1 else 0) + total t.phase t.issued + 3 * s.issued ≤
      total s.phase s.issued + 3 * t.issued := by
  refine step_count_of_idle ?_ ha
  intro j hj; rw [hinv.issued]; cases hp : s.phase j <;> simp_all [Sys.kind, Phase.kind]

theorem run_snoc_count {P : Params I} (hd : Distinct P) (acts : List Act) (s s' : Sys I)
    (hinv : Inv P s) (hr : s.running = true → RunInv P s) (h : run P s acts = some s') :
    acts.countP Act.isProgress + total s'.phase s'.issued + 3 * s.issued ≤
      total s.phase s.issued + 3 * s'.issued := by
  induction acts generalizing s with
  | nil => simp only [run, Option.some.injEq] at h; subst h; simp
  | cons a as ih =>
    simp only [run] at h
    cases ha : step P s a with
    | none => simp [ha] at h
    | some t =>
      simp only [ha] at h
      obtain ⟨hi', hr'⟩ := inv_step hd hinv hr ha
      have := ih t hi' hr' h
      have key := step_count hinv ha
      rw [List.countP_cons]
      omega

/-- C27: in every execution the number of progress acts is at most three times the number of challenges
issued, so all challenges have returned after boundedly many acts. -/
theorem C27_bounded (P : Params I) (hd : Distinct P) (pop₀ : ℕ → I) (acts : List Act) (s : Sys I)
    (h : run P (init pop₀) acts = some s) :
    acts.countP Act.isProgress ≤ 3 * s.issued := by
  have := run_snoc_count hd acts _ _ (Inv.init P pop₀) (fun _ => RunInv.init P pop₀) h
  simp [init, total] at this
  omega

/-! ## C28 -/

/-- C28: once all issued challenges have returned (and no fatal error or shutdown happened), the
population is that of the sequential run of the same challenges in the order of issue, whatever the
interleaving was. -/
theorem C28_async_eq_sequential (P : Params I) (hd : Distinct P) (pop₀ : ℕ → I) (s : Sys I)
    (h : Reachable P pop₀ s) (hrun : s.running = true)
    (hall : ∀ j, j < s.issued → s.phase j = .done) :
    s.pop = Sequential.popAfter P.lt P.req pop₀ s.issued := by
  obtain ⟨hinv, -⟩ := inv_reachable hd h
  funext k
  apply (seq_reachable hd h hrun).frontier
  · intro i hi _; exact .inr (hall i hi)
  · intro i hi _ hdec
    have : s.kind i = .idle := by
      by_contra hc; exact absurd ((hinv.issued i).2 hc) (by omega)
    rcases decided_kind hdec with h1 | h1 <;> rw [this] at h1 <;> cases h1

/-- C28: each challenge under evaluation was computed from the members the sequential run would use. -/
theorem C28_reads_sequential (P : Params I) (hd : Distinct P) (pop₀ : ℕ → I) (s : Sys I)
    (h : Reachable P pop₀ s) (hrun : s.running = true) (j : ℕ) (t : I) (out : Outcome I)
    (hp : s.phase j = .evaluating t out) :
    let q := Sequential.popAfter P.lt P.req pop₀ j
    let r := P.req j
    t = q r.kt ∧ out = r.trial (q r.kt) (q r.kb) (q r.k0) (q r.k1) :=
  (seq_reachable hd h hrun).read j t out hp

/-- Progress keeps the run going unless an evaluation was fatal. -/
theorem progress_running {P : Params I} {s s' : Sys I} {a : Act} (ha : a.isProgress = true)
    (hs : step P s a = some s') (hrun : s.running = true)
    (hnf : ∀ j t, s.phase j ≠ .evaluating t .fatal)
    (hnc : ∀ j t, s.phase j ≠ .evaluating t .failedConstraints) :
    s'.running = true ∧ s'.issued = s.issued := by
  cases a with
  | issue => cases ha
  | shutdown => cases ha
  | grant j =>
    simp only [step, if_pos hrun] at hs
    split at hs
    · split at hs
      · split at hs <;> (injection hs with hs; subst hs; exact ⟨hrun, rfl⟩)
      · cases hs
    · cases hs
  | finish j =>
    simp only [step] at hs
    split at hs
    · rename_i t out hp
      rw [hrun] at hs
      cases out with
      | fatal => exact absurd hp (hnf j t)
      | failedConstraints => exact absurd hp (hnc j t)
      | evaluated c =>
        simp only at hs
        split at hs
        · injection hs with hs; subst hs; exact ⟨rfl, rfl⟩
        · split at hs <;> (injection hs with hs; subst hs; exact ⟨rfl, rfl⟩)
    · cases hs
  | recorded j =>
    simp only [step] at hs
    split at hs
    · injection hs with hs; subst hs; exact ⟨hrun, rfl⟩
    · cases hs

theorem run_concat {P : Params I} {acts : List Act} {a : Act} {s₀ s s' : Sys I} (h : run P s₀ acts = some s)
    (hs : step P s a = some s') : run P s₀ (acts ++ [a]) = some s' := by
  induction acts generalizing s₀ with
  | nil =>
    cases h
    simp [run, hs]
  | cons b bs ih =>
    simp only [List.cons_append, run] at h ⊢
    cases hb : step P s₀ b with
    | none => rw [hb] at h; cases h
    | some t => rw [hb] at h; exact ih h

/-- Rejected challengers are not evaluated. -/
theorem step_evaluating {P : Params I} {s s' : Sys I} {a : Act} (hs : step P s a = some s')
    (h : ∀ j t, s.phase j ≠ .evaluating t .failedConstraints) :
    ∀ j t, s'.phase j ≠ .evaluating t .failedConstraints := by
  have upd : ∀ (i : ℕ) (ph : Phase I), (∀ t, ph ≠ .evaluating t .failedConstraints) →
      ∀ j t, Function.update s.phase i ph j ≠ .evaluating t .failedConstraints := by
    intro i ph hph j t
    by_cases hij : j = i
    · subst hij; rw [Function.update_self]; exact hph t
    · rw [Function.update_of_ne hij]; exact h j t
  cases a with
  | issue =>
    simp only [step] at hs
    split at hs <;> (injection hs with hs; subst hs; exact upd _ _ (by simp))
  | shutdown => injection hs with hs; subst hs; exact h
  | grant i =>
    simp only [step] at hs
    split at hs
    · split at hs
      · split at hs
        · split at hs
          · injection hs with hs; subst hs; exact upd _ _ (by simp)
          · rename_i hne
            injection hs with hs; subst hs
            refine upd _ _ ?_
            intro t ht
            injection ht with _ ht
            exact hne ht
        · injection hs with hs; subst hs; exact upd _ _ (by simp)
      · cases hs
    · cases hs
  | finish i =>
    simp only [step] at hs
    split at hs
    · split at hs
      · split at hs
        · injection hs with hs; subst hs; exact upd _ _ (by simp)
        · split at hs <;> (injection hs with hs; subst hs; exact upd _ _ (by simp))
      · injection hs with hs; subst hs; exact upd _ _ (by simp)
    · cases hs
  | recorded i =>
    simp only [step] at hs
    split at hs
    · injection hs with hs; subst hs; exact upd _ _ (by simp)
    · cases hs

theorem run_evaluating {P : Params I} (acts : List Act) {s s' : Sys I} (hs : run P s acts = some s')
    (h : ∀ j t, s.phase j ≠ .evaluating t .failedConstraints) :
    ∀ j t, s'.phase j ≠ .evaluating t .failedConstraints := by
  induction acts generalizing s with
  | nil => cases hs; exact h
  | cons a acts ih =>
    simp only [run] at hs
    cases ha : step P s a with
    | none => rw [ha] at hs; cases hs
    | some t => rw [ha] at hs; exact ih hs (step_evaluating ha h)

theorem progress_measure {P : Params I} (hd : Distinct P) {pop₀ : ℕ → I} {acts : List Act} {s : Sys I}
    (h : run P (init pop₀) acts = some s) (hrun : s.running = true)
    (hnf : ∀ j, j < s.issued → ∀ q, q = Sequential.popAfter P.lt P.req pop₀ j →
      (P.req j).trial (q (P.req j).kt) (q (P.req j).kb) (q (P.req j).k0) (q (P.req j).k1) ≠ .fatal)
    (hall : ¬ ∀ j, j < s.issued → s.phase j = .done) :
    ∃ a s', a.isProgress = true ∧ step P s a = some s' ∧ s'.running = true ∧ s'.issued = s.issued ∧
      3 * s.issued - (acts ++ [a]).countP Act.isProgress < 3 * s.issued - acts.countP Act.isProgress := by
  push Not at hall
  obtain ⟨j, hj, hnd⟩ := hall
  obtain ⟨a, s', ha, hs⟩ := C27_no_deadlock P hd pop₀ s ⟨acts, h⟩ j hj hnd
  obtain ⟨h1, h2⟩ := progress_running ha hs hrun
    (by
      intro i t hp
      have hi : i < s.issued := ((inv_reachable hd ⟨acts, h⟩).1.issued i).2 (by simp [Sys.kind, hp, Phase.kind])
      have := (C28_reads_sequential P hd pop₀ s ⟨acts, h⟩ hrun i t _ hp).2
      exact hnf i hi _ rfl this.symm)
    (run_evaluating acts h (by intro j t; simp [init]))
  have hb := C27_bounded P hd pop₀ _ s' (run_concat h hs)
  rw [h2, List.countP_append, List.countP_singleton, if_pos ha] at hb
  refine ⟨a, s', ha, hs, h1, h2, ?_⟩
  rw [List.countP_append, List.countP_singleton, if_pos ha]
  omega

/-- C28: any execution of any number of challenges none of which is fatal can be continued, without issuing further ones,
until all of them have returned; then the population is that of the sequential run. -/
theorem C28_completes (P : Params I) (hd : Distinct P) (pop₀ : ℕ → I) (acts : List Act) (s : Sys I)
    (h : run P (init pop₀) acts = some s) (hrun : s.running = true)
    (hnf : ∀ j, j < s.issued → ∀ q, q = Sequential.popAfter P.lt P.req pop₀ j →
      (P.req j).trial (q (P.req j).kt) (q (P.req j).kb) (q (P.req j).k0) (q (P.req j).k1) ≠ .fatal) :
    ∃ more s', (∀ a ∈ more, a.isProgress = true) ∧ run P (init pop₀) (acts ++ more) = some s' ∧
      s'.running = true ∧ s'.issued = s.issued ∧ (∀ j, j < s.issued → s'.phase j = .done) ∧
      s'.pop = Sequential.popAfter P.lt P.req pop₀ s.issued := by
  suffices key : ∀ (m : ℕ) (acts : List Act) (s : Sys I), run P (init pop₀) acts = some s → s.running = true →
      (∀ j, j < s.issued → ∀ q, q = Sequential.popAfter P.lt P.req pop₀ j →
        (P.req j).trial (q (P.req j).kt) (q (P.req j).kb) (q (P.req j).k0) (q (P.req j).k1) ≠ .fatal) →
      3 * s.issued - acts.countP Act.isProgress ≤ m →
      ∃ more s', (∀ a ∈ more, a.isProgress = true) ∧ run P (init pop₀) (acts ++ more) = some s' ∧
        s'.running = true ∧ s'.issued = s.issued ∧ (∀ j, j < s.issued → s'.phase j = .done) ∧
        s'.pop = Sequential.popAfter P.lt P.req pop₀ s.issued from
    key _ acts s h hrun hnf le_rfl
  intro m
  induction m with
  | zero =>
    intro acts s h hrun hnf hm
    by_cases hall : ∀ j, j < s.issued → s.phase j = .done
    · exact ⟨[], s, by simp, by simpa using h, hrun, rfl, hall, C28_async_eq_sequential P hd pop₀ s ⟨acts, h⟩ hrun hall⟩
    · obtain ⟨a, s', ha, hs, -, -, hlt⟩ := progress_measure hd h hrun hnf hall
      omega
  | succ m ih =>
    intro acts s h hrun hnf hm
    by_cases hall : ∀ j, j < s.issued → s.phase j = .done
    · exact ⟨[], s, by simp, by simpa using h, hrun, rfl, hall, C28_async_eq_sequential P hd pop₀ s ⟨acts, h⟩ hrun hall⟩
    · obtain ⟨a, s', ha, hs, hr', hi', hlt⟩ := progress_measure hd h hrun hnf hall
      obtain ⟨more, t, h1, h2, h3, h4, h5, h6⟩ := ih (acts ++ [a]) s' (run_concat h hs) hr' (by rw [hi']; exact hnf)
        (by rw [hi']; omega)
      rw [hi'] at h4 h5 h6
      refine ⟨a :: more, t, ?_, by simpa using h2, h3, h4, h5, h6⟩
      intro b hb
      rcases List.mem_cons.1 hb with rfl | hb
      · exact ha
      · exact h1 b hb

theorem run_issues (P : Params I) (pop₀ : ℕ → I) (n : ℕ) :
    ∃ s, run P (init pop₀) (List.replicate n .issue) = some s ∧ s.running = true ∧ s.issued = n := by
  induction n with
  | zero => exact ⟨_, rfl, rfl, rfl⟩
  | succ n ih =>
    obtain ⟨s, h1, h2, h3⟩ := ih
    rw [List.replicate_succ']
    have hs := show step P s .issue = some _ by simp only [step]; rw [if_pos h2]
    exact ⟨_, run_concat h1 hs, h2, by simp only [h3]⟩

/-- C28: any number of challenges can be issued at once when a run starts; if none of them is fatal, all of them are carried
out. -/
theorem C28_any_number (P : Params I) (hd : Distinct P) (pop₀ : ℕ → I) (n : ℕ)
    (hnf : ∀ j, j < n → ∀ q, q = Sequential.popAfter P.lt P.req pop₀ j →
      (P.req j).trial (q (P.req j).kt) (q (P.req j).kb) (q (P.req j).k0) (q (P.req j).k1) ≠ .fatal) :
    ∃ more s, (∀ a ∈ more, a.isProgress = true) ∧
      run P (init pop₀) (List.replicate n .issue ++ more) = some s ∧ s.running = true ∧
      s.pop = Sequential.popAfter P.lt P.req pop₀ n := by
  obtain ⟨s, h1, h2, rfl⟩ := run_issues P pop₀ n
  obtain ⟨more, t, h3, h4, h5, -, -, h6⟩ := C28_completes P hd pop₀ _ s h1 h2 hnf
  exact ⟨more, t, h3, h4, h5, h6⟩

/-- C28: at every moment, even after a shutdown, each member is one that the sequential run has at that
index at some point. -/
theorem C28_always_sequential_member (P : Params I) (hd : Distinct P) (pop₀ : ℕ → I) (s : Sys I)
    (h : Reachable P pop₀ s) (k : ℕ) :
    ∃ m, m ≤ s.issued ∧ s.pop k = Sequential.popAfter P.lt P.req pop₀ m k := by
  classical
  obtain ⟨acts, ha⟩ := h
  have key := run_induction (P := P)
    (fun s => Reachable P pop₀ s ∧
      ∃ m, m ≤ s.issued ∧ s.pop k = Sequential.popAfter P.lt P.req pop₀ m k)
    (fun s a s' hs hst => by
      have hreach : Reachable P pop₀ s' := by
        obtain ⟨⟨as, has⟩, _⟩ := hs
        refine ⟨as ++ [a], ?_⟩
        have : ∀ (l : List Act) (u : Sys I), run P u l = some s → run P u (l ++ [a]) = some s' := by
          intro l
          induction l with
          | nil => intro u hu; simp only [run, Option.some.injEq] at hu; subst hu; simp [run, hst]
          | cons b l ih =>
            intro u hu
            simp only [run, List.cons_append] at hu ⊢
            cases hb : step P u b with
            | none => simp [hb] at hu
            | some v => simp only [hb] at hu; exact ih v hu
        exact this as _ has
      refine ⟨hreach, ?_⟩
      by_cases hrun' : s'.running = true
      · obtain ⟨hinv, -⟩ := inv_reachable hd hreach
        have hseq := seq_reachable hd hreach hrun'
        have hidle : ∀ i, s'.issued ≤ i → ¬ Decided s' i := by
          intro i hi hdec
          have : s'.kind i = .idle := by
            by_contra hc; exact absurd ((hinv.issued i).2 hc) (by omega)
          rcases decided_kind hdec with h1 | h1 <;> rw [this] at h1 <;> cases h1
        by_cases hex : ∃ i, i < s'.issued ∧ (P.req i).kt = k ∧ ¬ Decided s' i
        · obtain ⟨⟨hm1, hm2, hm3⟩, hmin⟩ :=
            And.intro (Nat.find_spec hex) (fun i hi => Nat.find_min hex (m := i) hi)
          generalize Nat.find hex = m at hm1 hm2 hm3 hmin
          refine ⟨m, by omega, hseq.frontier k m ?_ ?_⟩
          · intro i hi hik
            by_contra hc
            exact hmin i hi ⟨by omega, hik, hc⟩
          · intro i hi hik hdec
            rcases Nat.lt_or_ge m i with hlt | hge
            · exact hm3 (hseq.prefix_ i m hlt (by rw [hm2, hik]) hdec)
            · have : i = m := by omega
              subst this; exact hm3 hdec
        · refine ⟨s'.issued, le_refl _, hseq.frontier k _ ?_ ?_⟩
          · intro i hi hik; by_contra hc; exact hex ⟨i, hi, hik, hc⟩
          · intro i hi _; exact hidle i hi
      · -- stopped: nothing was written by this act
        obtain ⟨m, hm, hp⟩ := hs.2
        have hpop : s'.pop = s.pop ∧ s.issued ≤ s'.issued := by
          cases a with
          | issue => simp only [step] at hst; split at hst <;> (injection hst with hst; subst hst; simp)
          | grant j =>
            simp only [step] at hst
            split at hst
            · split at hst
              · split at hst
                · split at hst <;> (injection hst with hst; subst hst; simp)
                · injection hst with hst; subst hst; simp
              · cases hst
            · cases hst
          | finish j =>
            simp only [step] at hst
            split at hst
            · split at hst
              · split at hst
                · injection hst with hst; subst hst
                  exact absurd (by assumption : s.running = true) hrun'
                · split at hst <;> (injection hst with hst; subst hst; simp)
              · injection hst with hst; subst hst; simp
            · cases hst
          | recorded j =>
            simp only [step] at hst
            split at hst
            · injection hst with hst; subst hst; simp
            · cases hst
          | shutdown => simp only [step] at hst; injection hst with hst; subst hst; simp
        exact ⟨m, by omega, by rw [hpop.1]; exact hp⟩)
    acts _ _ ⟨⟨[], rfl⟩, ⟨0, by simp [init], rfl⟩⟩ ha
  exact key.2

/-! ## C29 -/

/-- C29: one act leaves each member alone or replaces it by a strictly better one. -/
theorem C29_step_improves (P : Params I) (hd : Distinct P) (pop₀ : ℕ → I) (s s' : Sys I) (a : Act)
    (h : Reachable P pop₀ s) (hs : step P s a = some s') (k : ℕ) :
    s'.pop k = s.pop k ∨ P.lt (s'.pop k) (s.pop k) = true := by
  obtain ⟨hinv, hr⟩ := inv_reachable hd h
  cases a with
  | issue => simp only [step] at hs; split at hs <;> (injection hs with hs; subst hs; simp)
  | grant j =>
    simp only [step] at hs
    split at hs
    · split at hs
      · split at hs
        · split at hs <;> (injection hs with hs; subst hs; simp)
        · injection hs with hs; subst hs; simp
      · cases hs
    · cases hs
  | finish j =>
    simp only [step] at hs
    split at hs
    · rename_i t out hp
      split at hs
      · rename_i c hrun
        split at hs
        · rename_i hlt
          injection hs with hs; subst hs
          have ht := target_current hinv (hr hrun) (seq_reachable hd h hrun) hp
          by_cases hk : k = (P.req j).kt
          · subst hk; right; simp [ht, hlt]
          · left; simp [hk]
        · split at hs <;> (injection hs with hs; subst hs; simp)
      · injection hs with hs; subst hs; simp
    · cases hs
  | recorded j =>
    simp only [step] at hs
    split at hs
    · injection hs with hs; subst hs; simp
    · cases hs
  | shutdown => simp only [step] at hs; injection hs with hs; subst hs; simp

/-- C29: over any stretch of execution, each member stays or gets strictly better. -/
theorem C29_run_improves (P : Params I) (hd : Distinct P)
    (htrans : ∀ a b c, P.lt a b = true → P.lt b c = true → P.lt a c = true)
    (pop₀ : ℕ → I) (s s' : Sys I) (h : Reachable P pop₀ s) (acts : List Act)
    (hs : run P s acts = some s') (k : ℕ) :
    s'.pop k = s.pop k ∨ P.lt (s'.pop k) (s.pop k) = true := by
  have key : ∀ (acts : List Act) (u : Sys I), Reachable P pop₀ u →
      (u.pop k = s.pop k ∨ P.lt (u.pop k) (s.pop k) = true) → run P u acts = some s' →
      (s'.pop k = s.pop k ∨ P.lt (s'.pop k) (s.pop k) = true) := by
    intro acts
    induction acts with
    | nil => intro u _ hu hr; simp only [run, Option.some.injEq] at hr; subst hr; exact hu
    | cons a as ih =>
      intro u hreach hu hr
      simp only [run] at hr
      cases ha : step P u a with
      | none => simp [ha] at hr
      | some v =>
        simp only [ha] at hr
        have hv : Reachable P pop₀ v := by
          obtain ⟨as', has⟩ := hreach
          refine ⟨as' ++ [a], ?_⟩
          have : ∀ (l : List Act) (w : Sys I), run P w l = some u → run P w (l ++ [a]) = some v := by
            intro l
            induction l with
            | nil => intro w hw; simp only [run, Option.some.injEq] at hw; subst hw; simp [run, ha]
            | cons b l ih2 =>
              intro w hw
              simp only [run, List.cons_append] at hw ⊢
              cases hb : step P w b with
              | none => simp [hb] at hw
              | some x => simp only [hb] at hw; exact ih2 x hw
          exact this as' _ has
        refine ih v hv ?_ hr
        rcases C29_step_improves P hd pop₀ u v a hreach ha k with h1 | h1
        · rw [h1]; exact hu
        · rcases hu with h2 | h2
          · right; rw [← h2]; exact h1
          · right; exact htrans _ _ _ h1 h2
  exact key acts s h (.inl rfl) hs

/-- C29: hence the best of the first `n` members never gets worse: if `b` is the index of a best member
before and `b'` of a best member after, the earlier best is not strictly better than the later one. -/
theorem C29_best_never_worse (P : Params I) (hd : Distinct P)
    (htrans : ∀ a b c, P.lt a b = true → P.lt b c = true → P.lt a c = true)
    (pop₀ : ℕ → I) (s s' : Sys I) (h : Reachable P pop₀ s) (acts : List Act)
    (hs : run P s acts = some s') (n b b' : ℕ) (hb : b < n)
    (hb' : ∀ k, k < n → P.lt (s'.pop k) (s'.pop b') = false) :
    P.lt (s.pop b) (s'.pop b') = false := by
  have h1 := hb' b hb
  rcases C29_run_improves P hd htrans pop₀ s s' h acts hs b with h2 | h2
  · rw [← h2]; exact h1
  · by_contra hc
    rw [Bool.not_eq_false] at hc
    rw [htrans _ _ _ h2 hc] at h1
    cases h1

/-! ## C35 -/

/-- C35: after shutdown no act changes a member, starts an evaluation, or restarts the run. -/
theorem C35_frozen (P : Params I) (s s' : Sys I) (a : Act) (hrun : s.running = false)
    (hs : step P s a = some s') :
    s'.pop = s.pop ∧ s'.running = false ∧
      ∀ j t out, s'.phase j = .evaluating t out → s.phase j = .evaluating t out := by
  cases a with
  | issue =>
    simp only [step, hrun] at hs
    injection hs with hs; subst hs
    refine ⟨rfl, rfl, ?_⟩
    intro j t out hj
    by_cases h : j = s.issued
    · subst h; simp at hj
    · simpa [h] using hj
  | grant j =>
    simp only [step, hrun] at hs
    split at hs
    · split at hs
      · injection hs with hs; subst hs
        refine ⟨rfl, rfl, ?_⟩
        intro i t out hi
        by_cases h : i = j
        · subst h; simp at hi
        · simpa [h] using hi
      · cases hs
    · cases hs
  | finish j =>
    simp only [step, hrun] at hs
    split at hs
    · injection hs with hs; subst hs
      refine ⟨rfl, rfl, ?_⟩
      intro i t out hi
      by_cases h : i = j
      · subst h; simp at hi
      · simpa [h] using hi
    · cases hs
  | recorded j =>
    simp only [step] at hs
    split at hs
    · injection hs with hs; subst hs
      refine ⟨rfl, hrun, ?_⟩
      intro i t out hi
      by_cases h : i = j
      · subst h; simp at hi
      · simpa [h] using hi
    · cases hs
  | shutdown =>
    simp only [step] at hs
    injection hs with hs; subst hs
    exact ⟨rfl, rfl, fun _ _ _ h => h⟩

/-- C35: the same over any execution after a shutdown. -/
theorem C35_frozen_run (P : Params I) (s s' : Sys I) (acts : List Act) (hrun : s.running = false)
    (hs : run P s acts = some s') : s'.pop = s.pop ∧ s'.running = false := by
  have := run_induction (P := P) (fun u => u.pop = s.pop ∧ u.running = false)
    (fun u a v hu hst => by
      obtain ⟨h1, h2, _⟩ := C35_frozen P u v a hu.2 hst
      exact ⟨h1.trans hu.1, h2⟩) acts s s' ⟨rfl, hrun⟩ hs
  exact this

/-- C35: a repeated shutdown has no further effect. -/
theorem C35_shutdown_idempotent (P : Params I) (s s' : Sys I) (h : step P s .shutdown = some s') :
    step P s' .shutdown = some s' ∧ s'.pop = s.pop := by
  simp only [step] at h ⊢
  injection h with h; subst h; exact ⟨rfl, rfl⟩

/-- C35: every outstanding challenge still finishes after a shutdown: as long as one has not, some can
make progress, and (C27_bounded) only boundedly many acts remain. -/
theorem C35_outstanding_finish (P : Params I) (hd : Distinct P) (pop₀ : ℕ → I) (s : Sys I)
    (h : Reachable P pop₀ s) (_ : s.running = false) (j : ℕ) (hj : j < s.issued)
    (hnd : s.phase j ≠ .done) : ∃ a s', a.isProgress = true ∧ step P s a = some s' :=
  C27_no_deadlock P hd pop₀ s h j hj hnd

/-- C35: a fatal error during an evaluation stops the run: no member changes, the target is handed to
the next one waiting for it, and the challenge is over.  The same happens to any evaluation that ends
after a shutdown. -/
theorem C35_fatal_stops (P : Params I) (s : Sys I) (j : ℕ) (t : I) (out : Outcome I)
    (hj : s.phase j = .evaluating t out) (h : out = .fatal ∨ s.running = false) :
    ∃ s', step P s (.finish j) = some s' ∧ s'.running = false ∧ s'.pop = s.pop ∧
      s'.phase j = .done ∧ s'.queue (P.req j).kt = (s.queue (P.req j).kt).tail ∧
      (∀ k, k ≠ (P.req j).kt → s'.queue k = s.queue k) ∧ ∀ i, i ≠ j → s'.phase i = s.phase i := by
  refine ⟨{ s with
    running := false
    queue := release s.queue (P.req j).kt
    phase := Function.update s.phase j .done }, ?_, rfl, rfl, by simp, by simp [release], ?_, ?_⟩
  · simp only [step, hj]
    rcases h with h | h
    · subst h; rfl
    · rw [h]
      cases out <;> rfl
  · intro k hk; simp [release, hk]
  · intro i hi; simp [hi]

/-! ## Non-vacuity -/

/-- Two overlapping challenges on a population of numbers; the second one uses the target of the first
as base, and its evaluation is issued before the first one ends. -/
def exParams : Params ℕ where
  lt a b := decide (a < b)
  xSSE := false
  req j :=
    if j = 0 then ⟨0, 1, 2, 3, fun _ b _ _ => .evaluated (b - 5)⟩
    else if j = 1 then ⟨1, 0, 2, 3, fun _ b _ _ => .evaluated (b + 1)⟩
    else ⟨2, 3, 4, 5, fun _ _ _ _ => .failedConstraints⟩

theorem exParams_distinct : Distinct exParams := by
  intro j
  by_cases h0 : j = 0
  · subst h0; decide
  · by_cases h1 : j = 1
    · subst h1; decide
    · simp [exParams, h0, h1, Req.idx]

/-- The acts `issue 0, issue 1, grant 0, finish 0, grant 1, finish 1` run to completion. -/
example : ∃ s, run exParams (init fun k => 10 + k) [.issue, .issue, .grant 0, .finish 0, .grant 1,
    .finish 1] = some s ∧ s.running = true ∧ s.issued = 2 ∧ s.pop 0 = 6 ∧ s.pop 1 = 7 ∧
    s.phase 0 = .done ∧ s.phase 1 = .done :=
  ⟨_, rfl, rfl, rfl, rfl, rfl, rfl, rfl⟩

/-- Challenge 1 is blocked while challenge 0 is being evaluated. -/
example : run exParams (init fun k => 10 + k) [.issue, .issue, .grant 0, .grant 1] = none := rfl

/-- Non-vacuity of C35_fatal_stops: the evaluation of the first challenge fails while the second one
waits for its target. -/
def fatalParams : Params ℕ :=
  { exParams with req := fun j => { exParams.req j with trial := fun _ _ _ _ => .fatal } }

example : ∃ s, run fatalParams (init fun k => 10 + k) [.issue, .issue, .grant 0] = some s ∧
    s.phase 0 = .evaluating 10 .fatal ∧ s.running = true ∧ s.queue 0 = [0, 1] ∧
    ∃ s', step fatalParams s (.finish 0) = some s' ∧ s'.running = false ∧ s'.queue 0 = [1] :=
  ⟨_, rfl, rfl, rfl, rfl, _, rfl, rfl, rfl⟩

/-- A shutdown with one challenge under evaluation and one waiting. -/
example : ∃ s, run exParams (init fun k => 10 + k) [.issue, .issue, .grant 0, .shutdown, .finish 0,
    .grant 1] = some s ∧ s.running = false ∧ s.pop 0 = 10 ∧ s.phase 1 = .done :=
  ⟨_, rfl, rfl, rfl, rfl⟩

/-- The state after some acts on the population 10, 11, 12, … -/
def exAfter (acts : List Act) (h : (run exParams (init fun k => 10 + k) acts).isSome = true) : Sys ℕ :=
  (run exParams (init fun k => 10 + k) acts).get h

theorem exAfter_reachable (acts : List Act) (h : (run exParams (init fun k => 10 + k) acts).isSome = true) :
    Reachable exParams (fun k => 10 + k) (exAfter acts h) := ⟨acts, eq_get h⟩

/-- Challenge 0 is evaluating, challenge 1 waits for the lock of individual 0. -/
def exWaiting : Sys ℕ := exAfter [.issue, .issue, .grant 0] (by decide +kernel)

theorem exWaiting_reachable : Reachable exParams (fun k => 10 + k) exWaiting := exAfter_reachable _ _

/-- Both challenges are over. -/
def exDone : Sys ℕ := exAfter [.issue, .issue, .grant 0, .finish 0, .grant 1, .finish 1] (by decide +kernel)

theorem exDone_reachable : Reachable exParams (fun k => 10 + k) exDone := exAfter_reachable _ _

/-- The search was shut down while challenge 0 was evaluating. -/
def exStopped : Sys ℕ := exAfter [.issue, .issue, .grant 0, .shutdown] (by decide +kernel)

theorem exStopped_reachable : Reachable exParams (fun k => 10 + k) exStopped := exAfter_reachable _ _

theorem exWaiting_phase0 : exWaiting.phase 0 = .evaluating 10 (.evaluated 6) := by with_unfolding_all rfl

theorem exWaiting_phase1 : exWaiting.phase 1 = .waiting := by with_unfolding_all rfl

example := C26_mutual_exclusion exParams exParams_distinct _ _ exWaiting_reachable (by decide +kernel) 0 0 0
  (by rw [HoldsLock, exWaiting_phase0]; rfl) (by rw [HoldsLock, exWaiting_phase0]; rfl)

/-- Challenge 2, on other individuals, gets its locks while challenge 0 is evaluating. -/
example := C26_reads_no_target_in_progress exParams exParams_distinct (fun k => 10 + k) _ _
  (exAfter_reachable [.issue, .issue, .issue, .grant 0, .finish 0, .grant 1] (by decide +kernel)) (by decide +kernel)
  2 (eq_get (by decide +kernel)) 1 (by decide) (.inl ⟨11, .evaluated 7, by with_unfolding_all rfl⟩)

example := C27_no_deadlock exParams exParams_distinct _ _ exWaiting_reachable 1 (by decide +kernel)
  (by rw [exWaiting_phase1]; nofun)

example := C27_bounded exParams exParams_distinct (fun k => 10 + k) [.issue, .issue, .grant 0, .finish 0] _
  (eq_get (by decide +kernel))

example := C28_async_eq_sequential exParams exParams_distinct _ _ exDone_reachable (by decide +kernel)
  (fun j hj => by
    have : j < 2 := hj
    obtain rfl | rfl : j = 0 ∨ j = 1 := by omega
    all_goals with_unfolding_all rfl)

theorem exParams_not_fatal (j t b x y : ℕ) : (exParams.req j).trial t b x y ≠ .fatal := by
  unfold exParams
  simp only
  split
  · simp
  · split <;> simp

example := C28_completes exParams exParams_distinct (fun k => 10 + k) [.issue, .issue, .grant 0] exWaiting (eq_get (by decide +kernel))
  (by decide +kernel) (fun j _ _ _ => exParams_not_fatal j _ _ _ _)

example := C28_any_number exParams exParams_distinct (fun k => 10 + k) 7 (fun j _ _ _ => exParams_not_fatal j _ _ _ _)

example := C28_reads_sequential exParams exParams_distinct _ _ exWaiting_reachable (by decide +kernel) 0 _ _
  exWaiting_phase0

example := C28_always_sequential_member exParams exParams_distinct _ _ exWaiting_reachable 0

example := C29_step_improves exParams exParams_distinct _ _ _ (.finish 0) exWaiting_reachable
  (eq_get (by decide +kernel)) 0

theorem exParams_trans (a b c : ℕ) (h1 : exParams.lt a b = true) (h2 : exParams.lt b c = true) :
    exParams.lt a c = true := by
  simp only [exParams, decide_eq_true_eq] at *
  omega

example := C29_run_improves exParams exParams_distinct exParams_trans _ _ _ exWaiting_reachable
  [.finish 0, .grant 1, .finish 1] (eq_get (by decide +kernel)) 1

example := C29_best_never_worse exParams exParams_distinct exParams_trans _ _ _ exWaiting_reachable
  [.finish 0, .grant 1, .finish 1] (eq_get (by decide +kernel)) 2 1 0 (by decide)
  (fun k hk => by
    obtain rfl | rfl : k = 0 ∨ k = 1 := by omega
    all_goals with_unfolding_all rfl)

example := C35_frozen exParams exStopped _ (.finish 0) (by decide +kernel) (eq_get (by decide +kernel))

example := C35_frozen_run exParams exStopped _ [.finish 0, .grant 1] (by decide +kernel) (eq_get (by decide +kernel))

example := C35_shutdown_idempotent exParams exWaiting _ (eq_get (by decide +kernel))

example := C35_outstanding_finish exParams exParams_distinct _ _ exStopped_reachable (by decide +kernel) 1
  (by decide +kernel) (by
    have : exStopped.phase 1 = .waiting := by with_unfolding_all rfl
    rw [this]; nofun)

end DESystem
end Ade
