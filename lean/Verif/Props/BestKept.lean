import Verif.Lemmas.Cases
import Verif.Props.DERecord
import Verif.Props.Individual

/-!
# Property C88: the best solution evaluated in a run is never lost

Statements about whole executions of the model of a run (`Verif/Model/DESystem.lean`): any list of acts in any
interleaving.
-/

set_option autoImplicit false

namespace Ade
namespace DESystem

variable {I : Type}

/-- `c` is a challenger whose evaluation ended, without a fatal error, during the execution `acts` and before the
run was shut down. -/
def Evaluated (P : Params I) (pop₀ : ℕ → I) (acts : List Act) (c : I) : Prop :=
  ∃ pre j post s t, acts = pre ++ .finish j :: post ∧ run P (init pop₀) pre = some s ∧ s.running = true ∧
    s.phase j = .evaluating t (.evaluated c)

theorem run_append (P : Params I) (as bs : List Act) (s t : Sys I) :
    run P s (as ++ bs) = some t ↔ ∃ u, run P s as = some u ∧ run P u bs = some t := by
  induction as generalizing s with
  | nil => simp [run]
  | cons a as ih =>
    simp only [List.cons_append, run]
    cases step P s a <;> simp [ih]

theorem Evaluated.snoc {P : Params I} {pop₀ : ℕ → I} {acts : List Act} {c : I} (h : Evaluated P pop₀ acts c)
    (a : Act) : Evaluated P pop₀ (acts ++ [a]) c := by
  obtain ⟨pre, j, post, s, t, h1, h2, h3, h4⟩ := h
  exact ⟨pre, j, post ++ [a], s, t, by simp [h1], h2, h3, h4⟩

/-- C88: every member is an initial member or a challenger that was evaluated. -/
theorem C88_members_evaluated (P : Params I) (pop₀ : ℕ → I) (acts : List Act) (s : Sys I)
    (h : run P (init pop₀) acts = some s) (k : ℕ) : s.pop k = pop₀ k ∨ Evaluated P pop₀ acts (s.pop k) := by
  induction acts using List.reverseRecOn generalizing s with
  | nil => simp only [run, Option.some.injEq] at h; subst h; exact .inl rfl
  | append_singleton acts a ih =>
    obtain ⟨u, hu, hst⟩ := (run_snoc P acts a _ s).1 h
    have hpop : ∀ p, p = u.pop k → p = pop₀ k ∨ Evaluated P pop₀ (acts ++ [a]) p := by
      rintro p rfl
      exact (ih u hu).imp id fun h => h.snoc a
    cases a with
    | issue => simp only [step] at hst; split at hst <;> (injection hst with hst; subst hst; exact hpop _ rfl)
    | grant j =>
      simp only [step] at hst
      split at hst
      · split at hst
        · split at hst
          · split at hst <;> (injection hst with hst; subst hst; exact hpop _ rfl)
          · injection hst with hst; subst hst; exact hpop _ rfl
        · cases hst
      · cases hst
    | finish j =>
      simp only [step] at hst
      split at hst
      · rename_i t out hp
        split at hst
        · rename_i c hrun
          split at hst
          · injection hst with hst; subst hst
            by_cases hk : k = (P.req j).kt
            · right
              simp only [hk, Function.update_self]
              exact ⟨acts, j, [], u, t, rfl, hu, hrun, hp⟩
            · exact hpop _ (by simp [hk])
          · split at hst <;> (injection hst with hst; subst hst; exact hpop _ rfl)
        · injection hst with hst; subst hst; exact hpop _ rfl
      · cases hst
    | recorded j =>
      simp only [step] at hst
      split at hst
      · injection hst with hst; subst hst; exact hpop _ rfl
      · cases hst
    | shutdown => simp only [step] at hst; injection hst with hst; subst hst; exact hpop _ rfl

/-- C88: no challenger that was evaluated is better than the present member at the index it challenged. -/
theorem C88_not_beaten_by_challengers (P : Params I) (hd : Distinct P) (hirr : ∀ a, P.lt a a = false)
    (htrans : ∀ a b c, P.lt a b = true → P.lt b c = true → P.lt a c = true)
    (pop₀ : ℕ → I) (acts : List Act) (s : Sys I) (h : run P (init pop₀) acts = some s) (c : I)
    (hc : Evaluated P pop₀ acts c) : ∃ j, j < s.issued ∧ P.lt c (s.pop (P.req j).kt) = false := by
  obtain ⟨pre, j, post, u, t, rfl, hu, hrun, hp⟩ := hc
  obtain ⟨u', hu', hpost⟩ := (run_append P pre (.finish j :: post) _ s).1 h
  obtain rfl : u = u' := by rw [hu] at hu'; exact Option.some.inj hu'
  have hreach : Reachable P pop₀ u := ⟨pre, hu⟩
  obtain ⟨hinv, hr⟩ := inv_reachable hd hreach
  have ht := target_current hinv (hr hrun) (seq_reachable hd hreach hrun) hp
  rw [run] at hpost
  cases hst : step P u (.finish j) with
  | none => rw [hst] at hpost; simp at hpost
  | some v =>
    rw [hst] at hpost
    dsimp only at hpost
    have hv : Reachable P pop₀ v := ⟨pre ++ [.finish j], (run_snoc P pre _ _ v).2 ⟨u, hu, hst⟩⟩
    have h1 : P.lt c (v.pop (P.req j).kt) = false := by
      simp only [step, hp, hrun] at hst
      split at hst
      · injection hst with hst; subst hst; simp [hirr]
      · rename_i hlt
        split at hst <;> (injection hst with hst; subst hst; simpa [ht] using hlt)
    refine ⟨j, ?_, ?_⟩
    · have hs : Reachable P pop₀ s := ⟨_, h⟩
      obtain ⟨hinv', -⟩ := inv_reachable hd hs
      have hmono : ∀ (as : List Act) (x y : Sys I), run P x as = some y → x.issued ≤ y.issued := by
        intro as
        induction as with
        | nil => intro x y hxy; simp only [run, Option.some.injEq] at hxy; subst hxy; exact le_refl _
        | cons a as ih =>
          intro x y hxy
          rw [run] at hxy
          cases hx : step P x a with
          | none => rw [hx] at hxy; simp at hxy
          | some z =>
            rw [hx] at hxy
            refine le_trans ?_ (ih z y hxy)
            cases a <;> simp only [step] at hx <;> (repeat' split at hx) <;>
              first
                | (injection hx with hx; subst hx; simp)
                | cases hx
      have hj : j < u.issued := (hinv.issued j).2 (by simp [Sys.kind, Phase.kind, hp])
      exact lt_of_lt_of_le hj (hmono (.finish j :: post) u s (by rw [run, hst]; exact hpost))
    · rcases C29_run_improves P hd htrans pop₀ v s hv post hpost (P.req j).kt with h2 | h2
      · rw [h2]; exact h1
      · by_contra hcon
        rw [Bool.not_eq_false] at hcon
        rw [htrans _ _ _ hcon h2] at h1
        cases h1

end DESystem

namespace BestKept

open DESystem

theorem lt_irrefl (a : Individual) : a.lt a = false := by
  unfold Individual.lt; cases a.toFloat <;> simp [PyFloat.lt]

theorem lt_trans (a b c : Individual) (h1 : a.lt b = true) (h2 : b.lt c = true) : a.lt c = true := by
  unfold Individual.lt at *
  cases ha : a.toFloat <;> cases hb : b.toFloat <;> cases hc : c.toFloat <;>
    simp_all [PyFloat.lt]
  exact h1.trans h2

theorem not_lt_trans {a b c : Individual} (hb : b.SSE ≠ .nan) (h1 : a.lt b = false) (h2 : b.lt c = false) :
    a.lt c = false := by
  have hb' : b.toFloat ≠ .nan := by
    rw [(C01_score_reads b b.SSE).2]; exact hb
  unfold Individual.lt at *
  cases ha : a.toFloat <;> cases hb : b.toFloat <;> cases hc : c.toFloat <;>
    simp_all [PyFloat.lt]
  exact h2.trans h1

theorem lt_not_nan {a b : Individual} (h : a.lt b = true) : a.SSE ≠ .nan := by
  intro hn
  unfold Individual.lt at h
  rw [(C01_score_reads a a.SSE).2, hn] at h
  simp [PyFloat.lt] at h

/-- C88: in every execution of a run on `n` members whose initial scores are not NaN, at any moment, the best member is
at least as good as everything seen so far: the initial members and all challengers evaluated; and it is itself
one of these. -/
theorem C88_best_never_lost (P : Params Individual) (hd : Distinct P) (hlt : P.lt = Individual.lt)
    (pop₀ : ℕ → Individual) (n : ℕ) (hn : ∀ j, (P.req j).kt < n) (hnan : ∀ k, k < n → (pop₀ k).SSE ≠ .nan)
    (acts : List Act) (s : Sys Individual) (h : run P (init pop₀) acts = some s) (b : ℕ)
    (hb : ∀ k, k < n → (s.pop k).lt (s.pop b) = false) :
    (∀ k, k < n → (pop₀ k).lt (s.pop b) = false) ∧
    (∀ c, Evaluated P pop₀ acts c → c.lt (s.pop b) = false) ∧
    (s.pop b = pop₀ b ∨ Evaluated P pop₀ acts (s.pop b)) := by
  have htrans : ∀ a b c, P.lt a b = true → P.lt b c = true → P.lt a c = true := by
    rw [hlt]; exact lt_trans
  have hnan' : ∀ k, k < n → (s.pop k).SSE ≠ .nan := by
    intro k hk
    have hreach : Reachable P pop₀ (init pop₀) := ⟨[], rfl⟩
    rcases C29_run_improves P hd htrans pop₀ (init pop₀) s hreach acts h k with h1 | h1
    · rw [h1]; exact hnan k hk
    · rw [hlt] at h1; exact lt_not_nan h1
  refine ⟨fun k hk => ?_, fun c hc => ?_, C88_members_evaluated P pop₀ acts s h b⟩
  · have := C29_best_never_worse P hd htrans pop₀ (init pop₀) s ⟨[], rfl⟩ acts h n k b hk
      (by rw [hlt]; exact hb)
    rw [hlt] at this; exact this
  · obtain ⟨j, -, hj⟩ := C88_not_beaten_by_challengers P hd (by rw [hlt]; exact lt_irrefl) htrans pop₀ acts s h c hc
    rw [hlt] at hj
    exact not_lt_trans (hnan' _ (hn j)) hj (hb _ (hn j))

/-- A member with a NaN score at index 0. -/
def nanPop : ℕ → Individual := fun k => ⟨some (if k = 0 then .nan else .fin k), [k]⟩

/-- A challenge of index 0, with a challenger of score one half. -/
def nanParams : Params Individual where
  lt := Individual.lt
  xSSE := false
  req _ := ⟨0, 1, 2, 3, fun _ _ _ _ => .evaluated ⟨some (.fin (1 / 2)), [7]⟩⟩

/-- C88 is false with a member that has a NaN score: a challenger that is better than all other members is lost when
the target it happens to challenge has a NaN score. -/
theorem C88_nan_loses_best : ∃ s, run nanParams (init nanPop) [.issue, .grant 0, .finish 0, .recorded 0] = some s ∧
    s.running = true ∧ s.pop = nanPop ∧
    Evaluated nanParams nanPop [.issue, .grant 0, .finish 0, .recorded 0] ⟨some (.fin (1 / 2)), [7]⟩ ∧
    ∀ k, 1 ≤ k → (Individual.mk (some (.fin (1 / 2))) [7]).lt (nanPop k) = true := by
  refine ⟨(run nanParams (init nanPop) [.issue, .grant 0, .finish 0, .recorded 0]).getD (init nanPop),
    by with_unfolding_all rfl, by with_unfolding_all rfl, by with_unfolding_all rfl,
    ⟨[.issue, .grant 0], 0, [.recorded 0], (run nanParams (init nanPop) [.issue, .grant 0]).getD (init nanPop), nanPop 0,
      rfl, rfl, rfl, rfl⟩, ?_⟩
  intro k hk
  have h1 : (1 / 2 : ℚ) < k := by
    have : (1 : ℚ) ≤ k := by exact_mod_cast hk
    linarith
  have h0 : ¬ (k : ℚ) < 0 := by linarith
  have hk0 : k ≠ 0 := by omega
  simp [nanPop, hk0, Individual.lt, Individual.toFloat, Individual.SSE, PyFloat.lt, PyFloat.zero, h0]
  norm_num [PyFloat.lt, h1]

/-- Non-vacuity of C88_best_never_lost: scores 10, 11, 12, 13; the first challenger wins with 5, the second loses
with 20. -/
def exPop : ℕ → Individual := fun k => ⟨some (.fin (10 + k)), [k]⟩

def exP : Params Individual where
  lt := Individual.lt
  xSSE := false
  req j := ⟨j % 4, (j + 1) % 4, (j + 2) % 4, (j + 3) % 4,
    fun _ _ _ _ => .evaluated ⟨some (.fin (5 + 15 * j)), [7]⟩⟩

example : ∃ s, run exP (init exPop) [.issue, .issue, .grant 0, .finish 0, .grant 1, .finish 1, .recorded 1] = some s ∧
    s.running = true ∧ (s.pop 0).SSE = .fin 5 ∧ (s.pop 1).SSE = .fin 11 := by
  refine ⟨(run exP (init exPop) [.issue, .issue, .grant 0, .finish 0, .grant 1, .finish 1, .recorded 1]).getD
    (init exPop), ?_, ?_, ?_, ?_⟩ <;> with_unfolding_all rfl

/-- A winning and a losing challenge. -/
def exActs : List Act := [.issue, .issue, .grant 0, .finish 0, .grant 1, .finish 1, .recorded 1]

/-- The state after them. -/
def exS : Sys Individual := (run exP (init exPop) exActs).get (by with_unfolding_all rfl)

theorem exS_run : run exP (init exPop) exActs = some exS := eq_get (by with_unfolding_all rfl)

theorem exP_distinct : Distinct exP := by
  intro j
  simp only [exP, Req.idx, List.nodup_cons, List.mem_cons, List.not_mem_nil, or_false, List.nodup_nil, not_or,
    not_false_eq_true, and_true]
  refine ⟨⟨?_, ?_, ?_⟩, ⟨?_, ?_⟩, ?_⟩ <;> omega

/-- The loser has been evaluated. -/
theorem ex_evaluated : Evaluated exP exPop exActs ⟨some (.fin 20), [7]⟩ :=
  ⟨[.issue, .issue, .grant 0, .finish 0, .grant 1], 1, [.recorded 1],
    (run exP (init exPop) [.issue, .issue, .grant 0, .finish 0, .grant 1]).get (by with_unfolding_all rfl),
    exPop 1, rfl, eq_get _, by with_unfolding_all rfl, by with_unfolding_all rfl⟩

example := C88_members_evaluated exP exPop exActs exS exS_run 0

example := C88_not_beaten_by_challengers exP exP_distinct C02_strict_order.1 C02_strict_order.2.1 exPop exActs exS exS_run _
  ex_evaluated

example := C88_best_never_lost exP exP_distinct rfl exPop 4 (fun j => Nat.mod_lt _ (by decide))
  (fun k _ => by simp [exPop, Individual.SSE, PyFloat.lt, PyFloat.zero]; split <;> simp) exActs exS exS_run 0
  (fun k hk => by
    have : k = 0 ∨ k = 1 ∨ k = 2 ∨ k = 3 := by omega
    rcases this with rfl | rfl | rfl | rfl <;> with_unfolding_all rfl)

end BestKept
end Ade
