import Mathlib.Data.List.Induction
import Verif.Props.DESystem

/-!
# C78: which challengers are offered to the history

Every statement is about a whole execution: a list of acts from a fresh start, in any interleaving.
Only what sequential evolution (`Verif/Spec/Sequential.lean`) says about a challenge is used to tell
which challengers should be recorded.
-/

set_option autoImplicit false

namespace Ade
namespace Sequential

variable {I : Type}

/-- The challenger of challenge `j` of the sequential run, if it was evaluated and did not beat its
target. -/
def loser (lt : I → I → Bool) (req : ℕ → DESystem.Req I) (pop₀ : ℕ → I) (j : ℕ) : Option I :=
  let pop := popAfter lt req pop₀ j
  let r := req j
  match r.trial (pop r.kt) (pop r.kb) (pop r.k0) (pop r.k1) with
  | .evaluated c => if lt c (pop r.kt) then none else some c
  | _ => none

end Sequential

namespace DESystem

open Sequential (popAfter loser)

variable {I : Type}

theorem run_snoc (P : Params I) (acts : List Act) (a : Act) (s t : Sys I) :
    run P s (acts ++ [a]) = some t ↔ ∃ u, run P s acts = some u ∧ step P u a = some t := by
  induction acts generalizing s with
  | nil =>
    simp only [List.nil_append, run, Option.some.injEq, exists_eq_left']
    cases step P s a <;> simp
  | cons b acts ih =>
    simp only [List.cons_append, run]
    cases step P s b <;> simp [ih]

/-- What a phase says about the number of times its challenger has been recorded. -/
def Recorded (P : Params I) (pop₀ : ℕ → I) (running : Bool) (n j : ℕ) : Phase I → Prop
  | .recording => n = 0 ∧ P.xSSE = false ∧ (loser P.lt P.req pop₀ j).isSome = true
  | .done => (n = 1 ∧ P.xSSE = false ∧ (loser P.lt P.req pop₀ j).isSome = true) ∨
      (n = 0 ∧ (running = true → P.xSSE = true ∨ loser P.lt P.req pop₀ j = none))
  | _ => n = 0

theorem Recorded.stop {P : Params I} {pop₀ : ℕ → I} {b : Bool} {n j : ℕ} {p : Phase I}
    (h : Recorded P pop₀ b n j p) : Recorded P pop₀ false n j p := by
  cases p with
  | done => rcases h with h | h
            · exact .inl h
            · exact .inr ⟨h.1, by simp⟩
  | _ => exact h

theorem count_other {acts : List Act} {a : Act} {j : ℕ} (h : a ≠ .recorded j) :
    (acts ++ [a]).count (.recorded j) = acts.count (.recorded j) := by
  simp [List.count_append, h]

theorem recorded_inv (P : Params I) (hd : Distinct P) (pop₀ : ℕ → I) (acts : List Act) :
    ∀ s, run P (init pop₀) acts = some s →
      ∀ j, Recorded P pop₀ s.running (acts.count (.recorded j)) j (s.phase j) := by
  induction acts using List.reverseRecOn with
  | nil => intro s h j; simp only [run, Option.some.injEq] at h; subst h; simp [init, Recorded]
  | append_singleton acts a ih =>
    intro s' h j
    obtain ⟨s, hs, hst⟩ := (run_snoc P acts a _ _).1 h
    have IH := ih s hs
    have hreach : Reachable P pop₀ s := ⟨acts, hs⟩
    obtain ⟨hinv, hrinv⟩ := inv_reachable hd hreach
    cases a with
    | issue =>
      rw [count_other (by simp)]
      have hidle : s.phase s.issued = .idle := by
        have : s.kind s.issued = .idle := by
          by_contra hc; exact absurd ((hinv.issued _).2 hc) (lt_irrefl _)
        unfold Sys.kind at this
        cases hp : s.phase s.issued <;> simp_all [Phase.kind]
      have h0 := IH s.issued
      rw [hidle] at h0
      simp only [step] at hst
      split at hst
      · injection hst with hst; subst hst
        by_cases hj : j = s.issued
        · subst hj; simpa [Recorded] using h0
        · simpa [hj] using IH j
      · rename_i hr
        injection hst with hst; subst hst
        by_cases hj : j = s.issued
        · subst hj
          simp only [Function.update_self]
          exact .inr ⟨h0, fun hc => absurd hc hr⟩
        · simpa [hj] using IH j
    | grant i =>
      rw [count_other (by simp)]
      simp only [step] at hst
      cases hp : s.phase i with
      | waiting =>
        have h0 := IH i
        rw [hp] at h0
        simp only [hp] at hst
        have hw : s.kind i = .waiting := by unfold Sys.kind; rw [hp]; rfl
        split at hst
        · rename_i hg
          by_cases hrun : s.running = true
          · simp only [hrun, if_true] at hst
            have hread := read_granted hinv (hrinv hrun) (seq_reachable hd hreach hrun) hw hg
            have ht := hread (P.req i).kt (by simp [Req.idx])
            have hb := hread (P.req i).kb (by simp [Req.idx])
            have e0 := hread (P.req i).k0 (by simp [Req.idx])
            have e1 := hread (P.req i).k1 (by simp [Req.idx])
            cases htr : (P.req i).trial (s.pop (P.req i).kt) (s.pop (P.req i).kb)
                (s.pop (P.req i).k0) (s.pop (P.req i).k1) with
            | failedConstraints =>
              simp only [htr] at hst
              injection hst with hst; subst hst
              by_cases hj : j = i
              · subst hj
                simp only [Function.update_self]
                refine .inr ⟨h0, fun _ => .inr ?_⟩
                rw [ht, hb, e0, e1] at htr
                simp [loser, htr]
              · simpa [hj, hrun] using IH j
            | _ =>
              simp only [htr] at hst
              injection hst with hst; subst hst
              by_cases hj : j = i
              · subst hj; simpa [Recorded] using h0
              · simpa [hj, hrun] using IH j
          · simp only [hrun] at hst
            injection hst with hst; subst hst
            by_cases hj : j = i
            · subst hj
              simp only [Function.update_self]
              exact .inr ⟨h0, by simp⟩
            · simpa [hj] using (IH j).stop
        · cases hst
      | _ => simp [hp] at hst
    | finish i =>
      rw [count_other (by simp)]
      simp only [step] at hst
      cases hp : s.phase i with
      | evaluating t out =>
        have h0 := IH i
        rw [hp] at h0
        have stopped : ∀ s'', some { s with
            running := false
            queue := release s.queue (P.req i).kt
            phase := Function.update s.phase i .done } = some s'' →
            Recorded P pop₀ s''.running (acts.count (.recorded j)) j (s''.phase j) := by
          intro s'' hst
          injection hst with hst; subst hst
          by_cases hj : j = i
          · subst hj
            simp only [Function.update_self]
            exact .inr ⟨h0, by simp⟩
          · simpa [hj] using (IH j).stop
        simp only [hp] at hst
        by_cases hrun : s.running = true
        · obtain ⟨e1, e2⟩ := (seq_reachable hd hreach hrun).read i t out hp
          cases out with
          | evaluated c =>
            simp only [hrun] at hst
            have hl : loser P.lt P.req pop₀ i = if P.lt c t then none else some c := by
              simp only [loser]
              rw [← e2, ← e1]
            split at hst
            · rename_i hlt
              injection hst with hst; subst hst
              by_cases hj : j = i
              · subst hj
                simp only [Function.update_self]
                exact .inr ⟨h0, fun _ => .inr (by rw [hl, if_pos hlt])⟩
              · simpa [hj] using hrun ▸ IH j
            · rename_i hlt
              split at hst
              · rename_i hx
                injection hst with hst; subst hst
                by_cases hj : j = i
                · subst hj
                  simp only [Function.update_self]
                  exact ⟨h0, by simpa using hx, by rw [hl, if_neg hlt]; rfl⟩
                · simpa [hj] using hrun ▸ IH j
              · rename_i hx
                injection hst with hst; subst hst
                by_cases hj : j = i
                · subst hj
                  simp only [Function.update_self]
                  exact .inr ⟨h0, fun _ => .inl (by simpa using hx)⟩
                · simpa [hj] using hrun ▸ IH j
          | failedConstraints => exact stopped s' hst
          | fatal => exact stopped s' hst
        · simp only [hrun] at hst
          cases out <;> exact stopped s' hst
      | _ => simp [hp] at hst
    | recorded i =>
      simp only [step] at hst
      cases hp : s.phase i with
      | recording =>
        have h0 := IH i
        rw [hp] at h0
        simp only [hp] at hst
        injection hst with hst; subst hst
        by_cases hj : j = i
        · subst hj
          simp only [Function.update_self]
          exact .inl ⟨by simp [List.count_append, h0.1], h0.2⟩
        · rw [count_other (by simpa using fun h => hj h.symm)]
          simpa [hj] using IH j
      | _ => simp [hp] at hst
    | shutdown =>
      rw [count_other (by simp)]
      simp only [step] at hst
      injection hst with hst; subst hst
      exact (IH j).stop

/-- C78: in a run that has not been shut down, a finished challenge has recorded its challenger exactly
once if the challenger was evaluated, did not beat its target, and partial evaluation (`xSSE`) is off;
otherwise never. -/
theorem C78_recorded_iff_lost (P : Params I) (hd : Distinct P) (pop₀ : ℕ → I) (acts : List Act)
    (s : Sys I) (h : run P (init pop₀) acts = some s) (hrun : s.running = true) (j : ℕ)
    (hj : s.phase j = .done) :
    acts.count (.recorded j) =
      if P.xSSE = false ∧ (loser P.lt P.req pop₀ j).isSome = true then 1 else 0 := by
  have := recorded_inv P hd pop₀ acts s h j
  rw [hj] at this
  rcases this with ⟨h1, h2⟩ | ⟨h1, h2⟩
  · rw [h1, if_pos h2]
  · rw [h1, if_neg]
    rintro ⟨h3, h4⟩
    rcases h2 hrun with h | h
    · rw [h] at h3; cases h3
    · rw [h] at h4; cases h4

/-- C78: whatever happens (also with shutdowns and fatal errors), a challenge records its challenger at
most once, and only a losing one and without partial evaluations. -/
theorem C78_only_losers (P : Params I) (hd : Distinct P) (pop₀ : ℕ → I) (acts : List Act)
    (s : Sys I) (h : run P (init pop₀) acts = some s) (j : ℕ) :
    acts.count (.recorded j) ≤ 1 ∧
      (.recorded j ∈ acts → P.xSSE = false ∧ (loser P.lt P.req pop₀ j).isSome = true) := by
  have := recorded_inv P hd pop₀ acts s h j
  rw [← List.count_pos_iff]
  cases hp : s.phase j <;> rw [hp] at this <;> simp only [Recorded] at this
  case done =>
    rcases this with ⟨h1, h2⟩ | ⟨h1, h2⟩
    · exact ⟨h1.le, fun _ => h2⟩
    · exact ⟨by omega, by omega⟩
  case recording => exact ⟨by omega, by omega⟩
  all_goals exact ⟨by omega, by omega⟩

/-- C78: a challenge that puts its challenger into the population does not record it as one that was
never in the population. -/
theorem C78_winner_not_recorded (P : Params I) (hd : Distinct P) (pop₀ : ℕ → I) (acts : List Act)
    (s : Sys I) (h : run P (init pop₀) acts = some s) (j : ℕ)
    (hwin : popAfter P.lt P.req pop₀ (j + 1) ≠ popAfter P.lt P.req pop₀ j) :
    .recorded j ∉ acts := by
  intro hm
  obtain ⟨-, hl⟩ := (C78_only_losers P hd pop₀ acts s h j).2 hm
  apply hwin
  funext k
  show Sequential.challenge P.lt _ (P.req j) k = _
  simp only [loser] at hl
  unfold Sequential.challenge
  revert hl
  cases (P.req j).trial (popAfter P.lt P.req pop₀ j (P.req j).kt)
    (popAfter P.lt P.req pop₀ j (P.req j).kb) (popAfter P.lt P.req pop₀ j (P.req j).k0)
    (popAfter P.lt P.req pop₀ j (P.req j).k1) with
  | evaluated c =>
    simp only
    split
    · simp
    · rename_i hlt; intro _; simp [hlt]
  | _ => simp

/-! ## Non-vacuity -/

/-- The second challenge of two overlapping ones loses and is recorded. -/
def loseParams : Params ℕ where
  lt a b := decide (a < b)
  xSSE := false
  req j :=
    if j = 0 then ⟨0, 1, 2, 3, fun _ b _ _ => .evaluated (b - 5)⟩
    else ⟨1, 0, 2, 3, fun _ b _ _ => .evaluated (b + 10)⟩

example : ∃ s, run loseParams (init fun k => 10 + k) [.issue, .issue, .grant 0, .finish 0, .grant 1,
    .finish 1, .recorded 1] = some s ∧ s.running = true ∧ s.phase 0 = .done ∧ s.phase 1 = .done ∧
    loser loseParams.lt loseParams.req (fun k => 10 + k) 0 = none ∧
    loser loseParams.lt loseParams.req (fun k => 10 + k) 1 = some 16 :=
  ⟨_, rfl, rfl, rfl, rfl, rfl, rfl⟩

theorem loseParams_distinct : Distinct loseParams := by
  intro j
  by_cases h0 : j = 0
  · subst h0; decide
  · simp [loseParams, h0, Req.idx]

/-- The state after both challenges. -/
def loseActs : List Act := [.issue, .issue, .grant 0, .finish 0, .grant 1, .finish 1, .recorded 1]

example := C78_recorded_iff_lost loseParams loseParams_distinct (fun k => 10 + k) loseActs _
  (eq_get (by decide +kernel)) (by decide +kernel) 1 (by with_unfolding_all rfl)

example := C78_only_losers loseParams loseParams_distinct (fun k => 10 + k) loseActs _
  (eq_get (by decide +kernel)) 1

end DESystem
end Ade
