import Verif.Props.DESystem

/-!
# C26: the index locks once the run has been shut down

A challenge that finds the run shut down releases every lock of the population (ade/de.py:518-521), also those
of challenges that are still being evaluated.  From then on a lock may be had by two challenges, but nothing is
read or replaced under it.
-/

set_option autoImplicit false

namespace Ade
namespace DESystem

variable {I : Type}

/-- C26: whenever a challenge goes on to have its challenger evaluated, so that it has read members, those
members were not the target of any other challenge in progress.  There is no assumption that the run has not
been shut down. -/
theorem C26_evaluated_reads_no_target (P : Params I) (hd : Distinct P) (pop₀ : ℕ → I)
    (s s' : Sys I) (h : Reachable P pop₀ s) (j : ℕ) (hs : step P s (.grant j) = some s')
    (t : I) (out : Outcome I) (hev : s'.phase j = .evaluating t out) (i : ℕ) (hij : i ≠ j)
    (hi : (∃ t o, s.phase i = .evaluating t o) ∨ s.phase i = .recording) :
    (P.req i).kt ∉ [(P.req j).kt, (P.req j).kb, (P.req j).k0, (P.req j).k1] := by
  cases hrun : s.running with
  | true => exact C26_reads_no_target_in_progress P hd pop₀ s s' h hrun j hs i hij hi
  | false =>
    exfalso
    simp only [step, hrun] at hs
    cases hp : s.phase j <;> simp only [hp] at hs <;> try contradiction
    split at hs
    · simp only [Bool.false_eq_true, if_false, Option.some.injEq] at hs
      rw [← hs] at hev
      simp at hev
    · cases hs

/-- C26: a challenge that gets its locks after the run was shut down reads no member: its end, and what it does
to the locks, are the same whatever the members are and whatever its challenger would have been. -/
theorem C26_nothing_read_after_end (P P' : Params I) (s s' : Sys I) (hrun : s.running = false) (j : ℕ)
    (hs : step P s (.grant j) = some s') (pop' : ℕ → I)
    (hidx : (P'.req j).idx = (P.req j).idx) :
    step P' { s with pop := pop' } (.grant j) = some { s' with pop := pop' } ∧
      s'.pop = s.pop ∧ s'.phase j = .done := by
  simp only [step, granted, hrun, hidx] at hs ⊢
  cases hp : s.phase j <;> simp only [hp] at hs ⊢ <;> try contradiction
  split at hs
  · rename_i hg
    simp only [Bool.false_eq_true, if_false, Option.some.injEq] at hs
    subst hs
    rw [if_pos hg]
    simp
  · cases hs

/-- Three challenges; the third one uses the target of the first as base, the second one nothing of them. -/
def sharedParams : Params ℕ where
  lt a b := decide (a < b)
  xSSE := false
  req j :=
    if j = 0 then ⟨0, 1, 2, 3, fun _ b _ _ => .evaluated (b - 5)⟩
    else if j = 1 then ⟨4, 5, 6, 7, fun _ b _ _ => .evaluated (b - 5)⟩
    else ⟨1, 0, 2, 3, fun _ b _ _ => .evaluated (b + 1)⟩

theorem sharedParams_distinct : Distinct sharedParams := by
  intro j
  by_cases h0 : j = 0
  · subst h0; decide
  · by_cases h1 : j = 1
    · subst h1; decide
    · simp [sharedParams, h0, h1, Req.idx]

theorem shared_run : (run sharedParams (init fun k => 10 + k)
    [.issue, .issue, .issue, .grant 0, .shutdown, .grant 1]).isSome = true := by decide +kernel

/-- The first challenge is being evaluated when the run is shut down, and the second one then gets its locks. -/
def sharedState : Sys ℕ := (run sharedParams (init fun k => 10 + k)
  [.issue, .issue, .issue, .grant 0, .shutdown, .grant 1]).get shared_run

theorem shared_phase0 : sharedState.phase 0 = .evaluating 10 (.evaluated 6) := by with_unfolding_all rfl

theorem shared_phase2 : sharedState.phase 2 = .waiting := by with_unfolding_all rfl

/-- C26: after a shutdown the locks exclude nobody any more: the third challenge has been granted the lock of
the member that the first one, still being evaluated, has as its target. -/
theorem C26_shared_after_end :
    Reachable sharedParams (fun k => 10 + k) sharedState ∧ sharedState.running = false ∧
      HoldsLock sharedParams sharedState 0 0 ∧ HoldsLock sharedParams sharedState 2 0 := by
  refine ⟨⟨_, eq_get shared_run⟩, by decide +kernel, ?_, ?_⟩
  · rw [HoldsLock, shared_phase0]; rfl
  · rw [HoldsLock, shared_phase2]; exact ⟨by decide +kernel, by decide⟩

/-! ## Concrete instances of the hypotheses -/

/-- Two challenges on members that have nothing in common, both being evaluated at once. -/
example := C26_evaluated_reads_no_target sharedParams sharedParams_distinct (fun k => 10 + k) _ _
  ⟨[.issue, .issue, .grant 0], eq_get (by decide +kernel)⟩ 1 (eq_get (by decide +kernel)) 14
  (.evaluated 10) (by with_unfolding_all rfl) 0 (by decide)
  (.inl ⟨10, .evaluated 6, by with_unfolding_all rfl⟩)

example := C26_nothing_read_after_end sharedParams
  { sharedParams with req := fun j => { sharedParams.req j with trial := fun _ _ _ _ => .fatal } } sharedState _ (by decide +kernel) 2
  (eq_get (by decide +kernel)) (fun _ => 0) rfl

end DESystem
end Ade
