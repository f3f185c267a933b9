import Verif.Model.QueueRunner
import Verif.Lemmas.Cases
import Mathlib.Data.List.Induction
import Mathlib.Tactic.SplitIfs

/-!
# C115: shutting down a runner of the examples

"Repeated calls have no effect" (ade/examples/thermistor.py:325, ade/examples/voc.py:249).
-/

set_option autoImplicit false

namespace Ade
namespace QueueRunner

variable {V : Type}

/-- A call of `shutdown`, in the battery example also that of `evaluate(None)`. -/
def isCall (k : Kind) : Ev V → Bool
  | .shutdown => true
  | .evaluate none => decide (k = .voc)
  | _ => false

/-- The values of an evaluation. -/
def given : Ev V → Option V
  | .evaluate v => v
  | _ => none

/-- Calls of `shutdown` are made one after the other: none while an earlier one waits. -/
def OneByOne (k : Kind) (evs : List (Ev V)) : Prop :=
  ∀ pre e post s, evs = pre ++ e :: post → isCall k e = true → run k (start V) pre = some s → s.waiting = 0

theorem run_append (k : Kind) (s : St V) (a b : List (Ev V)) :
    run k s (a ++ b) = (run k s a).bind fun s' => run k s' b := by
  induction a generalizing s with
  | nil => rfl
  | cons e a ih =>
    rw [List.cons_append, run, run]
    cases step k s e with
    | none => rfl
    | some s' => exact ih s'

theorem run_snoc {k : Kind} {s s' : St V} {a : List (Ev V)} {e : Ev V} (h : run k s (a ++ [e]) = some s') :
    ∃ t, run k s a = some t ∧ step k t e = some s' := by
  rw [run_append] at h
  obtain ⟨t, h1, h2⟩ := Option.bind_eq_some_iff.1 h
  refine ⟨t, h1, ?_⟩
  rw [run] at h2
  cases hs : step k t e with
  | none => rw [hs] at h2; cases h2
  | some x => rw [hs] at h2; exact h2

/-- C115, what holds: if calls of `shutdown` are made one after the other, the queue is shut down at most once, and exactly
once if there was a call. -/
theorem C115_one_by_one_partial (k : Kind) (evs : List (Ev V)) (h : OneByOne k evs) (s : St V)
    (hr : run k (start V) evs = some s) :
    s.queueShutdowns = (if evs.any (isCall k) then 1 else 0) ∧ s.goodbyes + s.waiting = s.queueShutdowns := by
  have key : s.queueShutdowns = (if evs.any (isCall k) then 1 else 0) ∧ s.goodbyes + s.waiting = s.queueShutdowns ∧
      (s.q = false ↔ 0 < s.goodbyes) := by
    induction evs using List.reverseRecOn generalizing s with
    | nil => cases hr; simp [start]
    | append_singleton evs e ih =>
      obtain ⟨t, ht, he⟩ := run_snoc hr
      obtain ⟨i1, i2, i3⟩ := ih (fun pre e' post s' hp => h pre e' (post ++ [e]) s' (by simp [hp])) t ht
      have hw : isCall k e = true → t.waiting = 0 := fun hc => h evs e [] t rfl hc ht
      rw [List.any_append]
      have call : isCall k e = true → s = shutdown t →
          s.queueShutdowns = (if (evs.any (isCall k) || [e].any (isCall k)) then 1 else 0) ∧
            s.goodbyes + s.waiting = s.queueShutdowns ∧ (s.q = false ↔ 0 < s.goodbyes) := by
        intro hc hs
        have hw := hw hc
        subst hs
        unfold shutdown
        cases hq : t.q with
        | true =>
          have hg : t.goodbyes = 0 := by
            by_contra hg
            have := i3.2 (Nat.pos_of_ne_zero hg)
            rw [hq] at this; cases this
          simp [hq, hc, hg, hw] at *
          omega
        | false =>
          have hg := i3.1 hq
          have hone : t.queueShutdowns = 1 := by
            split_ifs at i1 <;> omega
          simp [hc]
          exact ⟨hone, i2, by simp [hq, hg]⟩
      have stay : isCall k e = false → s.queueShutdowns = t.queueShutdowns → s.waiting = t.waiting →
          s.goodbyes = t.goodbyes → s.q = t.q →
          s.queueShutdowns = (if (evs.any (isCall k) || [e].any (isCall k)) then 1 else 0) ∧
            s.goodbyes + s.waiting = s.queueShutdowns ∧ (s.q = false ↔ 0 < s.goodbyes) := by
        intro hc h1 h2 h3 h4
        simp only [List.any_cons, hc, List.any_nil, Bool.or_false]
        rw [h1, h2, h3, h4]
        exact ⟨i1, i2, i3⟩
      match e, he, call, stay with
      | .shutdown, he, call, _ => exact call rfl (Option.some.inj he).symm
      | .finished, he, _, _ =>
        rw [step] at he
        split_ifs at he with hw0
        cases he
        refine ⟨by simpa [isCall] using i1, by simp; omega, by simp⟩
      | .evaluate none, he, call, stay =>
        cases k with
        | thermistor => cases he; exact stay rfl rfl rfl rfl rfl
        | voc => exact call rfl (Option.some.inj he).symm
      | .evaluate (some v), he, _, stay =>
        rw [step] at he
        split_ifs at he <;> cases he <;> exact stay rfl rfl rfl rfl rfl
  exact ⟨key.1, key.2.1⟩

/-- C115, what holds: once a shutdown is finished nothing has an effect any more: whatever is called, the queue is not shut
down again and gets no more tasks. -/
theorem C115_afterwards (k : Kind) (evs evs' : List (Ev V)) (s s' : St V) (hr : run k (start V) evs = some s)
    (hg : 0 < s.goodbyes) (hr' : run k s evs' = some s') :
    s'.queueShutdowns = s.queueShutdowns ∧ s'.tasks = s.tasks ∧ ∀ v, returned s' (some v) = .nothing := by
  have hq : ∀ (evs : List (Ev V)) (s : St V), run k (start V) evs = some s → 0 < s.goodbyes → s.q = false := by
    intro evs
    induction evs using List.reverseRecOn with
    | nil => intro s h hg; cases h; exact absurd hg (by simp [start])
    | append_singleton evs e ih =>
      intro s h hg
      obtain ⟨t, ht, he⟩ := run_snoc h
      match e, he with
      | .shutdown, he =>
        cases he
        unfold shutdown at hg ⊢
        split_ifs at hg ⊢ with h1
        · exact absurd (ih t ht hg) (by simp [h1])
        · simpa using h1
      | .finished, he =>
        rw [step] at he
        split_ifs at he
        cases he; rfl
      | .evaluate none, he =>
        cases k with
        | thermistor => cases he; exact ih _ ht hg
        | voc =>
          cases he
          unfold shutdown at hg ⊢
          split_ifs at hg ⊢ with h1
          · exact absurd (ih t ht hg) (by simp [h1])
          · simpa using h1
      | .evaluate (some v), he =>
        rw [step] at he
        split_ifs at he with h1 <;> cases he
        · exact ih t ht hg
        · exact ih _ ht hg
  have h0 := hq evs s hr hg
  have : ∀ (evs' : List (Ev V)) (s s' : St V), s.q = false → run k s evs' = some s' →
      s'.q = false ∧ s'.queueShutdowns = s.queueShutdowns ∧ s'.tasks = s.tasks := by
    intro evs'
    induction evs' with
    | nil => intro s s' h0 h; cases h; exact ⟨h0, rfl, rfl⟩
    | cons e evs' ih =>
      intro s s' h0 h
      rw [run] at h
      have sd : shutdown s = s := by simp [shutdown, h0]
      match e, h with
      | .shutdown, h => simp only [step, sd] at h; exact ih s s' h0 h
      | .finished, h =>
        simp only [step] at h
        split_ifs at h
        exact ih { s with waiting := s.waiting - 1, q := false, goodbyes := s.goodbyes + 1 } s' rfl h
      | .evaluate none, h =>
        cases k <;> simp only [step, sd] at h <;> exact ih s s' h0 h
      | .evaluate (some v), h =>
        simp only [step, h0, Bool.false_eq_true, if_false] at h
        exact ih s s' h0 h
  obtain ⟨h1, h2, h3⟩ := this evs' s s' h0 hr'
  exact ⟨h2, h3, fun v => by simp [returned, h1]⟩

/-- C115: until a shutdown is finished, exactly the evaluations with values are given to the queue, in their order; those
made while a shutdown is under way are among them. -/
theorem C115_tasks (k : Kind) (evs : List (Ev V)) (s : St V) (hr : run k (start V) evs = some s)
    (hf : Ev.finished ∉ evs) : s.tasks = evs.filterMap given ∧ ∀ v, returned s (some v) = .task v ∧ returned s none = .none := by
  have : s.tasks = evs.filterMap given ∧ s.q = true := by
    induction evs using List.reverseRecOn generalizing s with
    | nil => cases hr; exact ⟨rfl, rfl⟩
    | append_singleton evs e ih =>
      obtain ⟨t, ht, he⟩ := run_snoc hr
      obtain ⟨i1, i2⟩ := ih t ht fun h => hf (by simp [h])
      rw [List.filterMap_append]
      match e, he with
      | .shutdown, he => cases he; simp [shutdown, i1, i2, given]
      | .finished, he => exact absurd (by simp) hf
      | .evaluate none, he =>
        cases k <;> cases he <;> simp [shutdown, i1, i2, given]
      | .evaluate (some v), he =>
        rw [step, if_pos i2] at he
        cases he
        simp [i1, i2, given]
  exact ⟨this.1, fun v => ⟨by simp [returned, this.2], rfl⟩⟩

/-- C115 fails: repeated calls do have an effect until the first one is finished: of any number of calls each one shuts down
the queue again, and says goodbye in the end. -/
theorem C115_repeated (k : Kind) (n : ℕ) : ∃ s s', run k (start V) (List.replicate n .shutdown) = some s ∧
    s.queueShutdowns = n ∧ run k s (List.replicate n .finished) = some s' ∧ s'.goodbyes = n ∧ s'.queueShutdowns = n := by
  have h1 : ∀ (n m : ℕ) (t : List V), run k (⟨true, m, m, 0, t⟩ : St V) (List.replicate n .shutdown) =
      some ⟨true, m + n, m + n, 0, t⟩ := by
    intro n
    induction n with
    | zero => intro m t; rfl
    | succ n ih =>
      intro m t
      rw [List.replicate_succ, run]
      simp only [step, shutdown, if_true]
      rw [ih (m + 1) t]
      simp [Nat.add_assoc, Nat.add_comm 1]
  have h2 : ∀ (n m g : ℕ) (q : Bool) (t : List V), ∃ s', run k (⟨q, n, m, g, t⟩ : St V) (List.replicate n .finished) =
      some s' ∧ s'.goodbyes = g + n ∧ s'.queueShutdowns = m := by
    intro n
    induction n with
    | zero => intro m g q t; exact ⟨_, rfl, rfl, rfl⟩
    | succ n ih =>
      intro m g q t
      obtain ⟨s', h1, h2, h3⟩ := ih m (g + 1) false t
      refine ⟨s', ?_, by omega, h3⟩
      rw [List.replicate_succ, run]
      simpa [step] using h1
  obtain ⟨s', a, b, c⟩ := h2 n n 0 true []
  refine ⟨_, s', h1 n 0 [], by simp, by simpa using a, by simpa using b, c⟩

/-- C115 fails: in the battery example this is what happens when a run is aborted: each evaluation still to come is one of
`None`, which calls `shutdown`.  The thermistor example does nothing then. -/
theorem C115_aborted (n : ℕ) :
    (∃ s, run .voc (start V) (List.replicate n (.evaluate none)) = some s ∧ s.queueShutdowns = n) ∧
      run .thermistor (start V) (List.replicate n (.evaluate none)) = some (start V) := by
  constructor
  · have : ∀ (n : ℕ) (s : St V), run .voc s (List.replicate n (.evaluate none)) = run .voc s (List.replicate n .shutdown) := by
      intro n
      induction n with
      | zero => intro s; rfl
      | succ n ih => intro s; simp only [List.replicate_succ, run, step]; exact ih _
    obtain ⟨s, _, h1, h2, _⟩ := C115_repeated (V := V) .voc n
    exact ⟨s, by rw [this]; exact h1, h2⟩
  · induction n with
    | zero => rfl
    | succ n ih => simp only [List.replicate_succ, run, step]; exact ih

/-- Calls one after the other, with evaluations before, between and after them. -/
def demo : List (Ev ℕ) := [.evaluate (some 3), .evaluate none, .evaluate (some 4), .finished, .shutdown, .evaluate (some 5)]

example := C115_one_by_one_partial .voc [Ev.evaluate (some 3), .shutdown, .finished, .shutdown] (by
  intro pre e post s hp hc hs
  rcases pre with _ | ⟨a, _ | ⟨b, _ | ⟨c, _ | ⟨d, _ | ⟨f, pre⟩⟩⟩⟩⟩ <;> simp at hp
  · cases hs; rfl
  · obtain ⟨rfl, rfl, _⟩ := hp; cases hs; rfl
  · obtain ⟨rfl, rfl, rfl, _⟩ := hp; cases hc
  · obtain ⟨rfl, rfl, rfl, rfl, _⟩ := hp; cases hs; rfl) _ rfl
example := C115_afterwards .voc (demo.take 4) (demo.drop 4) _ _ rfl (by decide) rfl
example := C115_tasks .thermistor [Ev.evaluate (some 3), .shutdown, .evaluate none, .evaluate (some 4)] _ rfl (by decide)
example := C115_repeated (V := ℕ) .thermistor 3
example := C115_aborted (V := ℕ) 3
example : (run .voc (start ℕ) demo).map (fun s => (s.tasks, s.queueShutdowns)) = some ([3, 4], 1) := by decide

end QueueRunner
end Ade
