import Verif.Lemmas.Cases
import Verif.Model.Waiting
import Verif.Props.ReporterCallbacks

/-!
# C109: at the end of a run the callbacks have been given the best
-/

set_option autoImplicit false

namespace Ade
namespace Waiting
open Reporter

/-! ## Specification -/

/-- The calls of callbacks end with a complete batch (each of the `n` callbacks, in order) on the
given values. -/
def LastGiven (n : ℕ) (log : List Call) (values : List ℚ) : Prop :=
  ∃ before last : List Call, log = before ++ last ∧ last.map (·.k) = List.range n ∧
    ∀ c ∈ last, c.values = values

/-! ## Steps -/

theorem whileLoop_keeps (n : ℕ) (s : St) :
    (whileLoop n s).iLast = s.iLast ∧ (whileLoop n s).running = s.running ∧
    (whileLoop n s).store = s.store := by
  unfold whileLoop
  split
  · exact ⟨rfl, rfl, rfl⟩
  · split
    · exact ⟨rfl, rfl, rfl⟩
    · dsimp only
      split
      · exact ⟨rfl, rfl, rfl⟩
      · split <;> exact ⟨rfl, rfl, rfl⟩

theorem forLoop_keeps (n : ℕ) (s : St) (i k : ℕ) :
    (forLoop n s i k).iLast = s.iLast ∧ (forLoop n s i k).running = s.running ∧
    (forLoop n s i k).store = s.store := by
  unfold forLoop
  split
  · split
    · exact whileLoop_keeps n s
    · exact ⟨rfl, rfl, rfl⟩
  · exact whileLoop_keeps n s

/-- Callbacks that return without complaint change neither scores nor what was last reported. -/
theorem returned_keeps (n : ℕ) : ∀ (m : ℕ) (s s' : St),
    run n s (List.replicate m (.returned .nothing)) = some s' →
    s'.iLast = s.iLast ∧ s'.running = s.running ∧ s'.store = s.store
  | 0, s, s', h => by
    simp only [List.replicate_zero, run, Option.some.injEq] at h
    subst h
    exact ⟨rfl, rfl, rfl⟩
  | m + 1, s, s', h => by
    simp only [List.replicate_succ, run] at h
    cases hs : step n s (.returned .nothing) with
    | none => rw [hs] at h; exact absurd h (by simp)
    | some t =>
      rw [hs] at h
      obtain ⟨h1, h2, h3⟩ := returned_keeps n m t s' h
      have ht : t.iLast = s.iLast ∧ t.running = s.running ∧ t.store = s.store := by
        simp only [step] at hs
        split at hs
        · simp only [Option.some.injEq] at hs
          subst hs
          exact forLoop_keeps _ _ _ _
        · exact absurd hs (by simp)
      exact ⟨h1.trans ht.1, h2.trans ht.2.1, h3.trans ht.2.2⟩

theorem runCallbacks_keeps (n : ℕ) (s : St) (i : ℕ) (p : Option ℕ) :
    (runCallbacks n s i p).iLast = s.iLast ∧ (runCallbacks n s i p).running = s.running ∧
    (runCallbacks n s i p).store = s.store := by
  unfold runCallbacks
  dsimp only
  split
  · exact whileLoop_keeps n _
  · exact ⟨rfl, rfl, rfl⟩

/-- After a forced report of an individual that is not false, the individual last reported is this one, or
one with the same values. -/
theorem newBest_forced (n : ℕ) (s : St) (b : ℕ) :
    (newBest n s b true).running = s.running ∧ (newBest n s b true).store = s.store ∧
    ∃ l, (newBest n s b true).iLast = some l ∧ (s.store l).values = (s.store b).values := by
  have key : ∀ t : St, t.store = s.store → t.running = s.running → t.iLast = s.iLast →
      let r := if (if same t.store b t.iLast then false else if true then true else
          if !better s b then false else !equivLast t b) = true
        then runCallbacks n { t with iLast := some b } b t.iBest else t
      r.running = s.running ∧ r.store = s.store ∧
        ∃ l, r.iLast = some l ∧ (s.store l).values = (s.store b).values := by
    intro t h1 h2 h3
    cases hsm : same t.store b t.iLast with
    | true =>
      simp only [if_true, Bool.false_eq_true, if_false]
      refine ⟨h2, h1, ?_⟩
      unfold same at hsm
      split at hsm
      · exact absurd hsm (by simp)
      · rename_i x hx
        refine ⟨x, hx, ?_⟩
        simp only [Individual.eq, Individual.equals, Bool.and_eq_true, beq_iff_eq] at hsm
        rw [← h1]
        exact hsm.2.2.symm
    | false =>
      simp only [Bool.false_eq_true, if_false, if_true]
      obtain ⟨r1, r2, r3⟩ := runCallbacks_keeps n { t with iLast := some b } b t.iBest
      exact ⟨r2.trans h2, r3.trans h1, b, r1, rfl⟩
  unfold newBest
  dsimp only
  cases hb : better s b with
  | true =>
    have := key { s with iBest := some b } rfl rfl rfl
    simpa [hb] using this
  | false =>
    have := key s rfl rfl rfl
    simpa [hb] using this

theorem reportBest_last (n : ℕ) (s : St) (b : ℕ) (hr : s.running = true) (hb : (s.store b).toBool = true) :
    (reportBest n s b).running = true ∧ (reportBest n s b).store = s.store ∧
    ∃ l, (reportBest n s b).iLast = some l ∧ (s.store l).values = (s.store b).values := by
  have h := newBest_forced n s b
  rw [hr] at h
  unfold reportBest report
  simp only [hr, Bool.not_true, Bool.false_eq_true, if_false]
  unfold call
  simp only [hb, Bool.not_true, Bool.false_eq_true, if_false, put]
  cases hbest : s.iBest with
  | none => simpa using h
  | some c => simpa using h

/-! ## Theorems -/

/-- C109: while the population is running, the wait for reports ends only when no callback is in progress. -/
theorem C109_waits (s : St) (hr : s.running = true) : fires true s = true ↔ inProgress s = false := by
  simp [fires, hr]

/-- C109: in any execution, once the wait for reports after a report of the best member is over, each
callback has been called last with the values of the best member, in a complete batch, if in the meantime
callbacks only returned without complaint (and no complaint handler has failed before, see
`C48_failed_handler_blocks`). -/
theorem C109_final_report (n : ℕ) (st : ℕ → Individual) (es : List Event) (s : St)
    (hs : run n (new st) es = some s) (hr : s.running = true) (b : ℕ) (hb : (s.store b).toBool = true)
    (m : ℕ) (s' : St)
    (hm : run n (reportBest n s b) (List.replicate m (.returned .nothing)) = some s')
    (hf : fires true s' = true) (hd : s'.phase ≠ .dead) :
    LastGiven n s'.log (s.store b).values := by
  obtain ⟨r1, r2, l, r3, r4⟩ := reportBest_last n s b hr hb
  obtain ⟨k1, k2, k3⟩ := returned_keeps n m _ s' hm
  have hrun : run n (new st) (es ++ (.report b none true true :: List.replicate m (.returned .nothing))) =
      some s' := by
    rw [run_append, hs]
    simp only [Option.bind_some, run, step]
    exact hm
  have hr' : s'.running = true := k2.trans r1
  have hp : s'.phase = .idle := by
    have := (C109_waits s' hr').mp hf
    unfold inProgress at this
    cases h : s'.phase with
    | idle => rfl
    | dead => exact absurd h hd
    | calling i k => rw [h] at this; exact absurd this (by simp)
    | complaining i k => rw [h] at this; exact absurd this (by simp)
  obtain ⟨full, j, hj, hlog⟩ := C48_last_delivered n st _ s' l hrun hr' hp (k1.trans r3)
  have hcont := run_content n st _ s' hrun
  obtain ⟨before, last, e, _, e2⟩ := List.map_eq_append_iff.mp hlog
  refine ⟨before, last, e, ?_, ?_⟩
  · have := congrArg (List.map Prod.fst) e2
    simpa [List.map_map, Function.comp_def] using this
  · intro c hc
    have hci : c.i = j := by
      have h1 : (c.k, c.i) ∈ last.map (fun c => (c.k, c.i)) := List.mem_map.mpr ⟨c, hc, rfl⟩
      rw [e2, List.mem_map] at h1
      obtain ⟨_, _, h1⟩ := h1
      exact (Prod.mk.inj h1).2.symm
    have h2 : c.values = (st c.i).values := (hcont.2 c (by rw [e]; exact List.mem_append_right _ hc)).1
    rw [h2, hci, ← (hcont.1 j).1, hj, k3, r2, r4]

/-- C109: the wait comes to an end: callbacks in progress that return without complaint are over after at
most two batches. -/
theorem C109_wait_ends (n : ℕ) (st : ℕ → Individual) (es : List Event) (s : St)
    (hs : run n (new st) es = some s) (hr : s.running = true) (i k : ℕ) (hp : s.phase = .calling i k) :
    ∃ m, m ≤ 2 * n ∧ ∃ s', run n s (List.replicate m (.returned .nothing)) = some s' ∧
      fires true s' = true ∧ s'.phase = .idle := by
  have hk : k < n := by
    have hi := (run_good n es _ s (new_good n st) hs).1 hr
    unfold Reporter.Inv at hi
    rw [hp] at hi
    exact hi.1
  obtain ⟨m, h1, s', h2, h3, h4, _⟩ := C48_settles n s i k hr hp hk
  refine ⟨m, h1, s', h2, ?_, h3⟩
  rw [C109_waits s' h4]
  simp [inProgress, h3]

/-- C109, where it ends: nothing is waited for once the population has been aborted, or before its setup has
ended, whatever callbacks are in progress. -/
theorem C109_not_waited (started : Bool) (s : St) (h : started = false ∨ s.running = false) :
    fires started s = true := by
  rcases h with h | h <;> simp [fires, h]

/-! ## Cases -/

/-- A run of two callbacks: a report is in progress when the final report of the best individual 2 is
filed; the wait ends after two batches, the last on individual 2. -/
example : ((run 2 (new sample) [.report 0 none false false]).bind fun s =>
      (run 2 (reportBest 2 s 2) (List.replicate 4 (.returned .nothing))).map fun s' =>
        (inProgress s, fires true (reportBest 2 s 2), fires true s', keys s'.log)) =
    some (true, false, true, [(0, 0), (1, 0), (0, 2), (1, 2)]) := by decide +kernel

example : ((run 2 (new sample) [.report 0 none false false]).map fun s =>
    ((s.store 2).toBool, s.running, s.phase)) = some (true, true, .calling 0 0) := by decide +kernel

/-- Aborted with a callback in progress. -/
example : ((run 2 (new sample) [.report 0 none false false, .abort]).map fun s =>
    (inProgress s, fires true s)) = some (true, true) := by decide +kernel

/-- A report whose callbacks have not returned yet. -/
def busy : St := (run 2 (new sample) [.report 0 none false false]).get (by decide +kernel)

example := C109_waits busy (by decide +kernel)

example := C109_final_report 2 sample [.report 0 none false false] busy (eq_get _) (by decide +kernel) 2
  (by decide +kernel) 4 ((run 2 (reportBest 2 busy 2) (List.replicate 4 (.returned .nothing))).get (by decide +kernel))
  (eq_get _) (by decide +kernel) (by decide +kernel)

example := C109_wait_ends 2 sample [.report 0 none false false] busy (eq_get _) (by decide +kernel) 0 0
  (by decide +kernel)

end Waiting
end Ade
