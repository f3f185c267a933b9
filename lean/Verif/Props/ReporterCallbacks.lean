import Verif.Props.Reporter

/-!
# Report callbacks: order, batches and delivery (C48, C62)
-/

set_option autoImplicit false

namespace Ade
namespace Reporter

/-- The calls of one complete batch: every callback once, in order of registration, on one
individual. -/
def batch (n i : ℕ) : List (ℕ × ℕ) := (List.range n).map (·, i)

/-- Which callback was called on which individual. -/
def keys (log : List Call) : List (ℕ × ℕ) := log.map fun c => (c.k, c.i)

/-- Individuals `i` and `j` have the same parameter values. -/
def SameValues (s : St) (i j : ℕ) : Prop := (s.store i).values = (s.store j).values

/-- What is known between batches: all batches so far are complete, and the individual last reported
is waiting, or its values were delivered by the last batch. -/
structure Between (n : ℕ) (s : St) (full : List ℕ) : Prop where
  log : keys s.log = full.flatMap (batch n)
  prev : ∀ j, s.iPrev = some j → full.getLast? = some j
  bag : ∀ x, s.bag = some x → s.iLast = some x
  last : ∀ l, s.iLast = some l → s.bag = some l ∨
    s.bag = none ∧ ∃ j, full.getLast? = some j ∧ SameValues s j l

/-- The invariant while the population is running. -/
def Inv (n : ℕ) (s : St) : Prop :=
  match s.phase with
  | .idle => s.bag = none ∧ ∃ full, Between n s full
  | .calling i k | .complaining i k =>
    k < n ∧ s.iPrev = some i ∧ (∃ full : List ℕ, keys s.log = full.flatMap (batch n) ++ batch (k + 1) i) ∧
    (∀ x, s.bag = some x → s.iLast = some x) ∧
    (∀ l, s.iLast = some l → s.bag = some l ∨ s.bag = none ∧ SameValues s i l)
  | .dead => ∃ (full : List ℕ) (m i : ℕ), m ≤ n ∧ keys s.log = full.flatMap (batch n) ++ batch m i

/-- The invariant after an abort. -/
def Stopped (n : ℕ) (s : St) : Prop :=
  (∃ (full : List ℕ) (m i : ℕ), m ≤ n ∧ keys s.log = full.flatMap (batch n) ++ batch m i)

theorem batch_succ (k i : ℕ) : batch (k + 1) i = batch k i ++ [(k, i)] := by
  simp [batch, List.range_succ]

theorem Inv.stopped {n : ℕ} {s : St} (h : Inv n s) : Stopped n s := by
  unfold Inv at h
  cases hp : s.phase with
  | idle =>
    simp only [hp] at h
    obtain ⟨_, full, hf⟩ := h
    exact ⟨full, 0, 0, Nat.zero_le _, by simp [hf.log, batch]⟩
  | calling i k =>
    simp only [hp] at h
    obtain ⟨hk, _, ⟨full, hf⟩, _⟩ := h
    exact ⟨full, k + 1, i, hk, hf⟩
  | complaining i k =>
    simp only [hp] at h
    obtain ⟨hk, _, ⟨full, hf⟩, _⟩ := h
    exact ⟨full, k + 1, i, hk, hf⟩
  | dead =>
    simp only [hp] at h
    exact h

theorem same_values {st : ℕ → Individual} {i j : ℕ} (h : same st i (some j) = true) :
    (st i).values = (st j).values := by
  simp only [same, Individual.eq, Individual.equals, Bool.and_eq_true, beq_iff_eq] at h
  exact h.2.2

theorem whileLoop_inv {n : ℕ} {s : St} {full : List ℕ} (hr : s.running = true)
    (h : Between n s full) : Inv n (whileLoop n s) := by
  unfold whileLoop
  cases hb : s.bag with
  | none =>
    simp only [Inv]
    refine ⟨trivial, full, ⟨h.log, h.prev, by simp, fun l hl => ?_⟩⟩
    have h' := h.last l hl
    rw [hb] at h'
    exact h'
  | some i =>
    simp only [hr, Bool.not_true, Bool.false_eq_true, if_false]
    have hl : s.iLast = some i := h.bag i hb
    split_ifs with h1 h2
    · simp only [Inv]
      refine ⟨trivial, full, ⟨h.log, h.prev, by simp, ?_⟩⟩
      intro l hl'
      refine Or.inr ⟨rfl, ?_⟩
      simp only at hl'
      rw [hl] at hl'
      cases hl'
      cases hp : s.iPrev with
      | none => simp [hp, same] at h1
      | some j =>
        rw [hp] at h1
        exact ⟨j, h.prev j hp, (same_values h1).symm⟩
    · simp only [Inv]
      refine ⟨trivial, full ++ [i], ⟨?_, ?_, by simp, ?_⟩⟩
      · simp [h.log, h2, batch]
      · intro j hj
        simp only [Option.some.injEq] at hj
        simp [hj]
      · intro l hl'
        simp only at hl'
        rw [hl] at hl'
        cases hl'
        exact Or.inr ⟨rfl, i, by simp, rfl⟩
    · simp only [Inv]
      refine ⟨Nat.pos_of_ne_zero h2, trivial, ⟨full, ?_⟩, by simp, ?_⟩
      · have := h.log
        simp only [keys] at this ⊢
        simp [this, batch]
      · intro l hl'
        rw [hl] at hl'
        cases hl'
        exact Or.inr ⟨trivial, rfl⟩

theorem whileLoop_stopped (n : ℕ) (s : St) (hr : s.running = false) :
    (whileLoop n s).log = s.log ∧ (whileLoop n s).phase = .idle ∧
      (whileLoop n s).running = false := by
  unfold whileLoop
  cases s.bag <;> simp [hr]

theorem whileLoop_running (n : ℕ) (s : St) : (whileLoop n s).running = s.running := by
  unfold whileLoop
  cases s.bag
  · rfl
  · simp only
    split_ifs <;> rfl

theorem forLoop_running (n : ℕ) (s : St) (i k : ℕ) : (forLoop n s i k).running = s.running := by
  unfold forLoop
  split_ifs <;> first | exact whileLoop_running n s | rfl

/-- What is known when callback `k` of a batch has been dealt with. -/
structure After (n : ℕ) (s : St) (i k : ℕ) : Prop where
  lt : k < n
  prev : s.iPrev = some i
  log : ∃ full : List ℕ, keys s.log = full.flatMap (batch n) ++ batch (k + 1) i
  bag : ∀ x, s.bag = some x → s.iLast = some x
  last : ∀ l, s.iLast = some l → s.bag = some l ∨ s.bag = none ∧ SameValues s i l

theorem forLoop_inv {n : ℕ} {s : St} {i k : ℕ} (hr : s.running = true) (h : After n s i k) :
    Inv n (forLoop n s i (k + 1)) := by
  obtain ⟨full, hf⟩ := h.log
  unfold forLoop
  by_cases hk : k + 1 < n
  · rw [if_pos hk]
    simp only [hr, Bool.not_true, Bool.false_eq_true, if_false, Inv]
    refine ⟨hk, h.prev, ⟨full, ?_⟩, h.bag, h.last⟩
    simp only [keys] at hf ⊢
    rw [List.map_append, hf, batch_succ (k + 1) i, List.append_assoc]
    rfl
  · rw [if_neg hk]
    have hkn : k + 1 = n := by have := h.lt; omega
    refine whileLoop_inv (full := full ++ [i]) hr ⟨?_, ?_, h.bag, ?_⟩
    · rw [hf, hkn]; simp
    · intro j hj
      rw [h.prev] at hj
      cases hj
      simp
    · intro l hl
      rcases h.last l hl with h1 | ⟨h1, h2⟩
      · exact Or.inl h1
      · exact Or.inr ⟨h1, i, by simp, h2⟩

theorem runCallbacks_inv {n : ℕ} {s : St} {i : ℕ} (p : Option ℕ) (hr : s.running = true)
    (h : Inv n s) :
    Inv n (runCallbacks n { s with iLast := some i } i p) := by
  unfold runCallbacks
  simp only
  by_cases hp : s.phase = .idle
  · rw [if_pos hp]
    unfold Inv at h
    simp only [hp] at h
    obtain ⟨hb, full, hf⟩ := h
    exact whileLoop_inv (full := full) (by exact hr)
      ⟨hf.log, by simp, by simp, by
        intro l hl'
        exact Or.inl hl'⟩
  · rw [if_neg hp]
    unfold Inv at h ⊢
    cases hq : s.phase with
    | idle => exact absurd hq hp
    | calling j k =>
      simp only [hq] at h ⊢
      exact ⟨h.1, h.2.1, h.2.2.1, by simp, by
        intro l hl'
        exact Or.inl hl'⟩
    | complaining j k =>
      simp only [hq] at h ⊢
      exact ⟨h.1, h.2.1, h.2.2.1, by simp, by
        intro l hl'
        exact Or.inl hl'⟩
    | dead =>
      simp only [hq] at h ⊢
      exact h

theorem whileLoop_last (n : ℕ) (s : St) : (whileLoop n s).iLast = s.iLast := by
  unfold whileLoop
  cases s.bag
  · rfl
  · simp only
    split_ifs <;> rfl

theorem runCallbacks_last (n : ℕ) (s : St) (i : ℕ) (p : Option ℕ) :
    (runCallbacks n s i p).iLast = s.iLast := by
  unfold runCallbacks
  simp only
  split_ifs
  · exact whileLoop_last n _
  · rfl

theorem runCallbacks_running (n : ℕ) (s : St) (i : ℕ) (p : Option ℕ) :
    (runCallbacks n s i p).running = s.running := by
  unfold runCallbacks
  simp only
  split_ifs
  · exact whileLoop_running n _
  · rfl

/-- The invariants do not look at the remembered best, the characters and the ratios. -/
theorem Inv.congr {n : ℕ} {s t : St} (h : Inv n s) (h1 : t.store = s.store) (h2 : t.iLast = s.iLast)
    (h3 : t.bag = s.bag) (h4 : t.iPrev = s.iPrev) (h5 : t.phase = s.phase) (h6 : t.log = s.log) :
    Inv n t := by
  obtain ⟨a, b, c, d, e, f, g, i, j, k, l⟩ := s
  obtain ⟨a', b', c', d', e', f', g', i', j', k', l'⟩ := t
  simp only at h1 h2 h3 h4 h5 h6
  subst h1 h2 h3 h4 h5 h6
  unfold Inv at h ⊢
  cases g' with
  | idle =>
    obtain ⟨h1, full, h2⟩ := h
    exact ⟨h1, full, ⟨h2.log, h2.prev, h2.bag, h2.last⟩⟩
  | calling => exact h
  | complaining => exact h
  | dead => exact h

theorem newBest_inv {n : ℕ} {s : St} (i : ℕ) (f : Bool) (hr : s.running = true) (h : Inv n s) :
    Inv n (newBest n s i f) ∧ (newBest n s i f).running = true := by
  unfold newBest
  simp only
  generalize ht : (if better s i = true then { s with iBest := some i } else s) = t
  have hi : Inv n t ∧ t.running = true := by
    subst ht
    split_ifs
    · exact ⟨h.congr rfl rfl rfl rfl rfl rfl, hr⟩
    · exact ⟨h, hr⟩
  split_ifs
  all_goals first
    | exact hi
    | exact ⟨runCallbacks_inv _ hi.2 hi.1,
        by rw [runCallbacks_running]; exact hi.2⟩

theorem put_inv {n : ℕ} {s : St} (np : Bool) (c : Char) (h : Inv n s ∧ s.running = true) :
    Inv n (put s np c) ∧ (put s np c).running = true := by
  unfold put
  split_ifs
  · exact h
  · exact ⟨h.1.congr rfl rfl rfl rfl rfl rfl, h.2⟩

theorem call_inv {n : ℕ} {s : St} (i : ℕ) (o : Option ℕ) (np f : Bool) (hr : s.running = true)
    (h : Inv n s) : Inv n (call n s i o np f).1 ∧ (call n s i o np f).1.running = true := by
  unfold call
  cases o with
  | none =>
    cases s.iBest <;> simp only <;> split_ifs <;>
      first
        | exact put_inv _ _ ⟨h, hr⟩
        | exact put_inv _ _ (newBest_inv i f hr h)
  | some o =>
    have h1 := put_inv np (msgRatio (s.store o) (s.store i) '!').2 ⟨h, hr⟩
    simp only
    split_ifs
    · have h2 := put_inv np '+' (newBest_inv i f h1.2 h1.1)
      exact ⟨h2.1.congr rfl rfl rfl rfl rfl rfl, h2.2⟩
    · exact h1

theorem report_inv {n : ℕ} {s : St} (i : ℕ) (o : Option ℕ) (np f : Bool) (hr : s.running = true)
    (h : Inv n s) : Inv n (report n s i o np f).1 ∧ (report n s i o np f).1.running = true := by
  have h1 := call_inv i o np f hr h
  unfold report
  rw [hr]
  simp only [Bool.not_true, Bool.false_eq_true, if_false]
  split
  · exact h1
  · exact ⟨h1.1.congr rfl rfl rfl rfl rfl rfl, h1.2⟩

/-- Invariant of all executions. -/
def Good (n : ℕ) (s : St) : Prop := (s.running = true → Inv n s) ∧ Stopped n s

theorem complain_fields (s : St) (i : ℕ) :
    (complain s i).bag = s.bag ∧ (complain s i).iLast = s.iLast ∧ (complain s i).iPrev = s.iPrev ∧
    (complain s i).log = s.log ∧ (complain s i).running = s.running ∧
    (complain s i).phase = s.phase ∧
    ∀ j, ((complain s i).store j).values = (s.store j).values := by
  have h : ∀ j, ((blacklist s i).store j).values = (s.store j).values := by
    intro j
    simp only [blacklist]
    split_ifs with hj
    · subst hj; rfl
    · rfl
  unfold complain
  simp only
  split
  · split_ifs
    · exact ⟨rfl, rfl, rfl, rfl, rfl, rfl, h⟩
    · exact ⟨rfl, rfl, rfl, rfl, rfl, rfl, h⟩
  · exact ⟨rfl, rfl, rfl, rfl, rfl, rfl, h⟩

theorem forLoop_stopped (n : ℕ) (s : St) (i k : ℕ) (hr : s.running = false) :
    (forLoop n s i k).log = s.log ∧ (forLoop n s i k).running = false := by
  unfold forLoop
  have := whileLoop_stopped n s hr
  split_ifs with h1 h2
  · exact ⟨this.1, this.2.2⟩
  · simp [hr] at h2
  · exact ⟨this.1, this.2.2⟩

theorem step_good {n : ℕ} {s s' : St} {e : Event} (h : Good n s) (hs : step n s e = some s') :
    Good n s' := by
  -- it suffices to treat the two cases separately
  have run1 : s'.running = true → Inv n s' → Good n s' := fun _ h2 => ⟨fun _ => h2, h2.stopped⟩
  have run0 : s'.running = false → s'.log = s.log → Good n s' := by
    intro h1 h2
    refine ⟨fun h3 => by rw [h1] at h3; exact absurd h3 (by simp), ?_⟩
    have := h.2
    unfold Stopped at this ⊢
    rw [h2]
    exact this
  cases hr : s.running with
  | false =>
    cases e with
    | report i o np f =>
      simp only [step, report, hr, Bool.not_false, if_true, Option.some.injEq] at hs
      subst hs
      exact run0 hr rfl
    | abort =>
      simp only [step, Option.some.injEq] at hs
      subst hs
      exact run0 rfl rfl
    | returned r =>
      simp only [step] at hs
      cases hp : s.phase <;> simp only [hp, reduceCtorEq] at hs
      rename_i i k
      have h1 := forLoop_stopped n s i (k + 1) hr
      cases r with
      | nothing =>
        simp only [Option.some.injEq] at hs; subst hs
        exact run0 h1.2 h1.1
      | complaint =>
        simp only [hr, Bool.and_false, Bool.false_eq_true, if_false, Option.some.injEq] at hs
        subst hs
        exact run0 h1.2 h1.1
      | failure =>
        simp only [Option.some.injEq] at hs; subst hs
        have h2 := whileLoop_stopped n { s with running := false } rfl
        exact run0 h2.2.2 h2.1
    | handled ok =>
      simp only [step] at hs
      cases hp : s.phase <;> simp only [hp, reduceCtorEq] at hs
      rename_i i k
      split_ifs at hs <;> simp only [Option.some.injEq] at hs <;> subst hs
      · have hc := complain_fields s i
        have h1 := forLoop_stopped n (complain s i) i (k + 1) (by rw [hc.2.2.2.2.1]; exact hr)
        exact run0 h1.2 (h1.1.trans hc.2.2.2.1)
      · exact run0 hr rfl
  | true =>
    have hi : Inv n s := h.1 hr
    cases e with
    | report i o np f =>
      simp only [step, Option.some.injEq] at hs
      subst hs
      have := report_inv i o np f hr hi
      exact run1 this.2 this.1
    | abort =>
      simp only [step, Option.some.injEq] at hs
      subst hs
      exact run0 rfl rfl
    | returned r =>
      simp only [step] at hs
      cases hp : s.phase <;> simp only [hp, reduceCtorEq] at hs
      rename_i i k
      unfold Inv at hi
      simp only [hp] at hi
      obtain ⟨a1, a2, a3, a4, a5⟩ := hi
      have h1 := forLoop_inv hr ⟨a1, a2, a3, a4, a5⟩
      cases r with
      | nothing =>
        simp only [Option.some.injEq] at hs; subst hs
        exact run1 (by rw [forLoop_running]; exact hr) h1
      | complaint =>
        simp only at hs
        split_ifs at hs <;> simp only [Option.some.injEq] at hs <;> subst hs
        · exact run1 hr (by unfold Inv; exact ⟨a1, a2, a3, a4, a5⟩)
        · exact run1 (by rw [forLoop_running]; exact hr) h1
      | failure =>
        simp only [Option.some.injEq] at hs; subst hs
        have h2 := whileLoop_stopped n { s with running := false } rfl
        exact run0 h2.2.2 h2.1
    | handled ok =>
      simp only [step] at hs
      cases hp : s.phase <;> simp only [hp, reduceCtorEq] at hs
      rename_i i k
      unfold Inv at hi
      simp only [hp] at hi
      obtain ⟨a1, a2, ⟨full, a3⟩, a4, a5⟩ := hi
      split_ifs at hs <;> simp only [Option.some.injEq] at hs <;> subst hs
      · obtain ⟨c1, c2, c3, c4, c5, c6, c7⟩ := complain_fields s i
        refine run1 (by rw [forLoop_running, c5]; exact hr) (forLoop_inv (by rw [c5]; exact hr)
          ⟨a1, by rw [c3]; exact a2, ⟨full, by rw [c4]; exact a3⟩, by rw [c1, c2]; exact a4, ?_⟩)
        rw [c1, c2]
        intro l hl
        rcases a5 l hl with b1 | ⟨b1, b2⟩
        · exact Or.inl b1
        · exact Or.inr ⟨b1, by unfold SameValues; rw [c7, c7]; exact b2⟩
      · exact run1 hr (by unfold Inv; exact ⟨full, k + 1, i, a1, a3⟩)

theorem run_good (n : ℕ) (es : List Event) : ∀ (s s' : St), Good n s → run n s es = some s' →
    Good n s' := by
  induction es with
  | nil =>
    intro s s' h hs
    simp only [run, Option.some.injEq] at hs
    exact hs ▸ h
  | cons e es ih =>
    intro s s' h hs
    simp only [run] at hs
    cases h1 : step n s e with
    | none => simp [h1] at hs
    | some s1 =>
      simp only [h1] at hs
      exact ih s1 s' (step_good h h1) hs

theorem new_good (n : ℕ) (st : ℕ → Individual) : Good n (new st) := by
  have : Inv n (new st) := by
    simp only [Inv, new]
    exact ⟨trivial, [], ⟨by simp [keys], by simp, by simp, by simp⟩⟩
  exact ⟨fun _ => this, this.stopped⟩

/-- C48: in every execution, the calls made so far are complete batches (each registered callback
once, in order, all on the same individual) followed by the beginning of at most one more batch. -/
theorem C48_batches (n : ℕ) (st : ℕ → Individual) (es : List Event) (s : St)
    (hs : run n (new st) es = some s) :
    ∃ (full : List ℕ) (m i : ℕ), m ≤ n ∧
      s.log.map (fun c => (c.k, c.i)) =
        full.flatMap (fun j => (List.range n).map (·, j)) ++ (List.range m).map (·, i) :=
  (run_good n es _ s (new_good n st) hs).2

/-- C48: in every execution that has settled (still running, no callbacks in progress), the last
batch was a complete one and delivered the parameter values of the individual last reported. -/
theorem C48_last_delivered (n : ℕ) (st : ℕ → Individual) (es : List Event) (s : St) (l : ℕ)
    (hs : run n (new st) es = some s) (hr : s.running = true) (hp : s.phase = .idle)
    (hl : s.iLast = some l) :
    ∃ (full : List ℕ) (j : ℕ), (s.store j).values = (s.store l).values ∧
      s.log.map (fun c => (c.k, c.i)) =
        full.flatMap (fun j => (List.range n).map (·, j)) ++ (List.range n).map (·, j) := by
  have h := (run_good n es _ s (new_good n st) hs).1 hr
  unfold Inv at h
  simp only [hp] at h
  obtain ⟨hb, full, hf⟩ := h
  rcases hf.last l hl with h1 | ⟨_, j, h2, h3⟩
  · rw [hb] at h1; exact absurd h1 (by simp)
  · obtain ⟨ys, hys⟩ := List.getLast?_eq_some_iff.1 h2
    refine ⟨ys, j, h3, ?_⟩
    have := hf.log
    simp only [keys, hys, List.flatMap_append, List.flatMap_cons, List.flatMap_nil,
      List.append_nil] at this
    exact this

example : (run 2 (new sample) [.report 0 none false false, .report 1 none false false,
      .report 2 none false false, .returned .nothing, .returned .nothing, .returned .nothing,
      .returned .nothing]).map
      (fun s => (s.running, s.phase, s.iLast, keys s.log)) =
    some (true, .idle, some 2, [(0, 0), (1, 0), (0, 2), (1, 2)]) := by decide +kernel

/-- In any execution, individuals keep their values, and each call passes the values of its individual. -/
theorem run_content (n : ℕ) (st : ℕ → Individual) (es : List Event) (s : St)
    (hs : run n (new st) es = some s) :
    (∀ j, (s.store j).values = (st j).values ∧
      ((s.store j).SSE = (st j).SSE ∨ (s.store j).SSE = .pinf)) ∧
    ∀ c ∈ s.log, c.values = (st c.i).values ∧ (c.score = (st c.i).SSE ∨ c.score = .pinf) := by
  -- generalize to all starting states
  let P : St → Prop := fun s =>
    (∀ j, (s.store j).values = (st j).values ∧
      ((s.store j).SSE = (st j).SSE ∨ (s.store j).SSE = .pinf)) ∧
    ∀ c ∈ s.log, c.values = (st c.i).values ∧ (c.score = (st c.i).SSE ∨ c.score = .pinf)
  have hwhile : ∀ s, P s → P (whileLoop n s) := by
    intro s h
    refine ⟨by rw [whileLoop_store]; exact h.1, ?_⟩
    unfold whileLoop
    cases s.bag with
    | none => exact h.2
    | some i =>
      simp only
      split_ifs
      all_goals first
        | exact h.2
        | (intro c hc
           simp only [List.mem_append, List.mem_singleton] at hc
           rcases hc with hc | rfl
           · exact h.2 c hc
           · exact h.1 i)
  have hfor : ∀ s i k, P s → P (forLoop n s i k) := by
    intro s i k h
    unfold forLoop
    split_ifs
    · exact hwhile s h
    · refine ⟨h.1, ?_⟩
      intro c hc
      simp only [List.mem_append, List.mem_singleton] at hc
      rcases hc with hc | rfl
      · exact h.2 c hc
      · exact h.1 i
    · exact hwhile s h
  have hrc : ∀ s i p, P s → P (runCallbacks n s i p) := by
    intro s i p h
    unfold runCallbacks
    simp only
    split_ifs
    · exact hwhile _ h
    · exact h
  have hnb : ∀ s i f, P s → P (newBest n s i f) := by
    intro s i f h
    unfold newBest
    simp only
    have h1 : P (if better s i = true then { s with iBest := some i } else s) := by
      split_ifs <;> exact h
    generalize (if better s i = true then { s with iBest := some i } else s) = t at *
    split_ifs
    all_goals first
      | exact h1
      | exact hrc _ _ _ h1
  have hput : ∀ s np c, P s → P (put s np c) := by
    intro s np c h
    unfold put
    split_ifs <;> exact h
  have hcall : ∀ s i o np f, P s → P (call n s i o np f).1 := by
    intro s i o np f h
    unfold call
    cases o with
    | none =>
      cases s.iBest <;> simp only <;> split_ifs <;>
        first
          | exact hput _ _ _ h
          | exact hput _ _ _ (hnb _ _ _ h)
    | some o =>
      simp only
      split_ifs
      · exact hput _ np '+' (hnb _ i f (hput s np _ h))
      · exact hput _ _ _ h
  have hrep : ∀ s i o np f, P s → P (report n s i o np f).1 := by
    intro s i o np f h
    have := hcall s i o np f h
    unfold report
    split_ifs
    · exact h
    · simp only
      split <;> exact this
  have hcomp : ∀ s i, P s → P (complain s i) := by
    intro s i h
    have hf := complain_fields s i
    refine ⟨?_, by rw [hf.2.2.2.1]; exact h.2⟩
    intro j
    refine ⟨by rw [hf.2.2.2.2.2.2]; exact (h.1 j).1, ?_⟩
    rw [complain_store]
    simp only [blacklist]
    split_ifs
    · exact Or.inr rfl
    · exact (h.1 j).2
  have hstep : ∀ s e s', P s → step n s e = some s' → P s' := by
    intro s e s' h hs
    cases e with
    | report i o np f =>
      simp only [step, Option.some.injEq] at hs
      subst hs
      exact hrep _ _ _ _ _ h
    | abort =>
      simp only [step, Option.some.injEq] at hs
      subst hs
      exact h
    | returned r =>
      simp only [step] at hs
      cases hp : s.phase <;> simp only [hp, reduceCtorEq] at hs
      cases r with
      | nothing => simp only [Option.some.injEq] at hs; subst hs; exact hfor _ _ _ h
      | complaint =>
        simp only at hs
        split_ifs at hs <;> simp only [Option.some.injEq] at hs <;> subst hs
        · exact h
        · exact hfor _ _ _ h
      | failure =>
        simp only [Option.some.injEq] at hs; subst hs
        exact hwhile _ h
    | handled ok =>
      simp only [step] at hs
      cases hp : s.phase <;> simp only [hp, reduceCtorEq] at hs
      split_ifs at hs <;> simp only [Option.some.injEq] at hs <;> subst hs
      · exact hfor _ _ _ (hcomp _ _ h)
      · exact h
  have hrun : ∀ es s s', P s → run n s es = some s' → P s' := by
    intro es
    induction es with
    | nil =>
      intro s s' h hs
      simp only [run, Option.some.injEq] at hs
      exact hs ▸ h
    | cons e es ih =>
      intro s s' h hs
      simp only [run] at hs
      cases h1 : step n s e with
      | none => simp [h1] at hs
      | some s1 =>
        simp only [h1] at hs
        exact ih s1 s' (hstep s e s1 h h1) hs
  exact (hrun es (new st) s ⟨fun j => ⟨rfl, Or.inl rfl⟩, by simp [new]⟩ hs)

/-- C48: every call passes the parameter values of its individual, and its score (infinite after a
complaint). -/
theorem C48_call_content (n : ℕ) (st : ℕ → Individual) (es : List Event) (s : St)
    (hs : run n (new st) es = some s) :
    ∀ c ∈ s.log, c.values = (st c.i).values ∧ (c.score = (st c.i).SSE ∨ c.score = .pinf) :=
  (run_content n st es s hs).2

/-- C48: a forced report of an individual with a usable score hands that individual to the callbacks (it
becomes the individual last reported), unless its values and score are those of the individual last
reported; whether it is better or worse than the best. -/
theorem C48_forced_reported (n : ℕ) (s : St) (i l : ℕ) (a d : ℚ) (np : Bool)
    (hr : s.running = true) (hl : s.iLast = some l) (hi : Scored (s.store i) a)
    (hls : Scored (s.store l) d) (hne : a ≠ d ∨ (s.store i).values ≠ (s.store l).values) :
    (report n s i none np true).1.iLast = some i := by
  have hsame : same s.store i (some l) = false := by
    rcases hne with h | h
    · simp [same, Individual.eq, hi.SSE, hls.SSE, PyFloat.eq, h]
    · simp [same, Individual.eq, Individual.equals, h]
  have key : (newBest n s i true).iLast = some i := by
    unfold newBest
    cases hb : better s i <;>
      simp only [Bool.false_eq_true, if_false, if_true, hl, hsame, runCallbacks_last]
  have hput : ∀ (t : St) (ch : Char), (put t np ch).iLast = t.iLast := by
    intro t ch
    unfold put
    split_ifs <;> rfl
  have hcall : (call n s i none np true).1.iLast = some i ∧ (call n s i none np true).2 = none := by
    unfold call
    simp only [hi.toBool, Bool.not_true, Bool.false_eq_true, if_false]
    cases s.iBest with
    | none => simp only [hput]; exact ⟨key, trivial⟩
    | some b => simp only [Bool.or_true, if_true, hput]; exact ⟨key, trivial⟩
  unfold report
  simp only [hr, Bool.not_true, Bool.false_eq_true, if_false]
  rw [hcall.2]
  exact hcall.1

example : ((run 1 (new sample) [.report 1 none false false, .returned .nothing,
    .report 0 none false true]).map fun s => (s.iBest, s.iLast)) = some (some 1, some 0) := by
  decide +kernel

/-- C48: a better individual whose score is at least two percent below that of the individual last
reported becomes the individual last reported. -/
theorem C48_new_best_reported (n : ℕ) (s : St) (i b l : ℕ) (o : Option ℕ) (a c d : ℚ) (np f : Bool)
    (hr : s.running = true) (hb : s.iBest = some b) (hl : s.iLast = some l)
    (hi : Scored (s.store i) a) (hbs : Scored (s.store b) c) (hls : Scored (s.store l) d)
    (hac : a < c) (had : a ≤ d * (98 / 100)) (hd : 0 < d) :
    (report n s i o np f).1.iLast = some i := by
  have had' : a < d := by linarith
  have key : ∀ t : St, t.store = s.store → t.iBest = s.iBest → t.iLast = s.iLast →
      (newBest n t i f).iLast = some i := by
    intro t h1 h2 h3
    have hbet : better t i = true := by
      simp [better, h1, h2, hb, hi.lt hbs, hac]
    have hsame : same s.store i (some l) = false := by
      simp [same, Individual.eq, hi.SSE, hls.SSE, PyFloat.eq, had'.ne]
    have hequiv : equivLast { t with iBest := some i } i = false := by
      by_contra h
      have h' : equivSSE (.fin a) (.fin d) = true := by
        simpa [equivLast, h1, h3, hl, hi.SSE, hls.SSE] using h
      have := (equivSSE_iff hd had'.le).1 h'
      linarith
    have hg : (if same t.store i t.iLast then false else if f then true else
        if !true then false else !equivLast { t with iBest := some i } i) = true := by
      rw [hequiv, h1, h3, hl, hsame]
      cases f <;> rfl
    unfold newBest
    simp only [hbet, if_true]
    simp only [hg, if_true]
    rw [runCallbacks_last]
  have hput : ∀ (t : St) (ch : Char), (put t np ch).iLast = t.iLast := by
    intro t ch
    unfold put
    split_ifs <;> rfl
  have hcall : (call n s i o np f).1.iLast = some i := by
    unfold call
    cases o with
    | none =>
      simp only [hi.toBool, hb, hi.lt hbs, hac, Bool.not_true, Bool.false_eq_true, if_false,
        decide_true, Bool.true_or, if_true, hput]
      exact key s rfl rfl rfl
    | some o =>
      have hbet : better s i = true := by
        simp [better, hb, hi.lt hbs, hac]
      simp only [put_better, hbet, if_true, hput]
      exact key _ (put_store _ _ _) (put_best _ _ _) (hput _ _)
  unfold report
  simp only [hr, Bool.not_true, Bool.false_eq_true, if_false]
  split
  · exact hcall
  · exact hcall

example : ((run 1 (new sample) [.report 0 none false false, .returned .nothing,
    .report 1 none false false]).map fun s => (s.iBest, s.iLast)) = some (some 1, some 1) := by
  decide +kernel

theorem run_append (n : ℕ) (as bs : List Event) : ∀ s : St,
    run n s (as ++ bs) = (run n s as).bind fun t => run n t bs := by
  induction as with
  | nil => intro s; rfl
  | cons e as ih =>
    intro s
    simp only [List.cons_append, run]
    cases step n s e with
    | none => rfl
    | some t => exact ih t

theorem finish_batch (n d : ℕ) : ∀ (s : St) (i k : ℕ), s.running = true →
    s.phase = .calling i k → k + d + 1 = n →
    ∃ t, run n s (List.replicate (d + 1) (.returned .nothing)) = some (whileLoop n t) ∧
      t.running = true ∧ t.bag = s.bag ∧ t.iLast = s.iLast := by
  induction d with
  | zero =>
    intro s i k hr hp hk
    have h : ¬ k + 1 < n := by omega
    exact ⟨s, by simp [run, step, hp, forLoop, h], hr, rfl, rfl⟩
  | succ d ih =>
    intro s i k hr hp hk
    have hlt : k + 1 < n := by omega
    have hf : forLoop n s i (k + 1) = { s with
        log := s.log ++ [⟨k + 1, i, (s.store i).values, (s.store i).SSE⟩]
        phase := .calling i (k + 1) } := by
      simp [forLoop, hlt, hr]
    have hstep : step n s (.returned .nothing) = some (forLoop n s i (k + 1)) := by
      simp [step, hp]
    obtain ⟨t, h1, h2, h3, h4⟩ := ih (forLoop n s i (k + 1)) i (k + 1)
      (by rw [hf]; exact hr) (by rw [hf]) (by omega)
    refine ⟨t, ?_, h2, by rw [h3, hf], by rw [h4, hf]⟩
    rw [List.replicate_succ]
    simp only [run, hstep]
    exact h1

/-- C48: callbacks that return without complaint bring every running execution to rest, after at
most two batches. -/
theorem C48_settles (n : ℕ) (s : St) (i k : ℕ) (hr : s.running = true)
    (hp : s.phase = .calling i k) (hk : k < n) :
    ∃ m, m ≤ 2 * n ∧ ∃ s', run n s (List.replicate m (.returned .nothing)) = some s' ∧
      s'.phase = .idle ∧ s'.running = true ∧ s'.iLast = s.iLast := by
  obtain ⟨t, h1, h2, _, h4⟩ := finish_batch n (n - 1 - k) s i k hr hp (by omega)
  have hd : n - 1 - k + 1 = n - k := by omega
  rw [hd] at h1
  by_cases hidle : (whileLoop n t).phase = .idle
  · exact ⟨n - k, by omega, _, h1, hidle, by rw [whileLoop_running]; exact h2,
      by rw [whileLoop_last]; exact h4⟩
  · have hcall : ∃ x, (whileLoop n t).phase = .calling x 0 ∧ (whileLoop n t).bag = none := by
      revert hidle
      unfold whileLoop
      cases t.bag with
      | none => simp
      | some x =>
        simp only
        split_ifs <;> simp
    obtain ⟨x, hx, hb⟩ := hcall
    obtain ⟨u, u1, u2, u3, u4⟩ := finish_batch n (n - 1) (whileLoop n t) x 0
      (by rw [whileLoop_running]; exact h2) hx (by omega)
    have hd' : n - 1 + 1 = n := by omega
    rw [hd'] at u1
    refine ⟨(n - k) + n, by omega, whileLoop n u, ?_, ?_, ?_, ?_⟩
    · rw [List.replicate_add, run_append, h1]
      exact u1
    · rw [hb] at u3
      simp [whileLoop, u3]
    · rw [whileLoop_running]; exact u2
    · rw [whileLoop_last, u4, whileLoop_last, h4]

/-- Once the complaint handler has failed, no callback is ever called again. -/
theorem C48_failed_handler_blocks (n : ℕ) (es : List Event) : ∀ (s s' : St), s.phase = .dead →
    run n s es = some s' → s'.phase = .dead ∧ s'.log = s.log := by
  have hrc : ∀ (s : St) i p, s.phase = .dead →
      (runCallbacks n s i p).phase = .dead ∧ (runCallbacks n s i p).log = s.log := by
    intro s i p h
    simp [runCallbacks, h]
  have hnb : ∀ (s : St) i f, s.phase = .dead →
      (newBest n s i f).phase = .dead ∧ (newBest n s i f).log = s.log := by
    intro s i f h
    unfold newBest
    simp only
    generalize ht : (if better s i = true then { s with iBest := some i } else s) = t
    have h1 : t.phase = .dead ∧ t.log = s.log := by
      subst ht
      split_ifs <;> exact ⟨h, rfl⟩
    split_ifs
    all_goals first
      | exact h1
      | (have h2 := hrc { t with iLast := some i } i t.iBest h1.1
         exact ⟨h2.1, h2.2.trans h1.2⟩)
  have hput : ∀ (s : St) np c, (put s np c).phase = s.phase ∧ (put s np c).log = s.log := by
    intro s np c
    unfold put
    split_ifs <;> exact ⟨rfl, rfl⟩
  have hcall : ∀ (s : St) i o np f, s.phase = .dead →
      (call n s i o np f).1.phase = .dead ∧ (call n s i o np f).1.log = s.log := by
    intro s i o np f h
    have hnb' := hnb s i f h
    unfold call
    cases o with
    | none =>
      cases s.iBest <;> simp only <;> split_ifs <;>
        simp only [(hput _ _ _).1, (hput _ _ _).2, hnb', h, and_self]
    | some o =>
      simp only
      have hq := hput s np (msgRatio (s.store o) (s.store i) '!').2
      have hr := hnb (put s np (msgRatio (s.store o) (s.store i) '!').2) i f (hq.1.trans h)
      split_ifs
      · simp only [(hput _ _ _).1, (hput _ _ _).2, hr, and_self]
      · exact ⟨hq.1.trans h, hq.2⟩
  induction es with
  | nil =>
    intro s s' h hs
    simp only [run, Option.some.injEq] at hs
    subst hs
    exact ⟨h, rfl⟩
  | cons e es ih =>
    intro s s' h hs
    simp only [run] at hs
    cases e with
    | report i o np f =>
      have h1 : (report n s i o np f).1.phase = .dead ∧ (report n s i o np f).1.log = s.log := by
        have h2 := hcall s i o np f h
        unfold report
        split_ifs
        · exact ⟨h, rfl⟩
        · simp only
          split <;> exact h2
      simp only [step] at hs
      have h3 := ih _ s' h1.1 hs
      exact ⟨h3.1, h3.2.trans h1.2⟩
    | abort =>
      simp only [step] at hs
      exact ih { s with running := false } s' h hs
    | returned r => simp [step, h] at hs
    | handled ok => simp [step, h] at hs

example : (run 1 (new sample) [.report 0 none false false, .returned .complaint, .handled false,
      .report 2 none false false]).map (fun s => (s.phase, s.iLast, keys s.log)) =
    some (.dead, some 2, [(0, 0)]) := by decide +kernel

/-! ## C62: the delivered best stays within two percent of the remembered best -/

/-- Scores of `b` and `l` are equal as objects or within two percent. -/
def Close (st : ℕ → Individual) (b l : ℕ) : Prop :=
  b = l ∨ equivSSE (st b).SSE (st l).SSE = true

/-- The remembered best and the last reported individual exist together and are close. -/
def CloseInv (s : St) : Prop :=
  (s.iBest = none ∧ s.iLast = none) ∨ ∃ b l, s.iBest = some b ∧ s.iLast = some l ∧ Close s.store b l

theorem newBest_last (n : ℕ) (s : St) (i : ℕ) (h : CloseInv s) : CloseInv (newBest n s i false) := by
  have hst := newBest_store n s i false
  have hbest := newBest_best n s i false
  have hlast : (newBest n s i false).iLast =
      if better s i && (!same s.store i s.iLast && !equivLast s i) then some i else s.iLast := by
    have he : equivLast { s with iBest := some i } i = equivLast s i := rfl
    unfold newBest
    cases hb : better s i
    · simp
    · simp only [if_true, Bool.false_eq_true, if_false, Bool.not_true, he]
      cases same s.store i s.iLast <;> cases equivLast s i <;> simp [runCallbacks_last]
  unfold CloseInv
  rw [hst, hbest, hlast]
  cases hb : better s i with
  | false => unfold CloseInv at h; simpa using h
  | true =>
    right
    cases hs : same s.store i s.iLast with
    | true =>
      rcases h with ⟨_, h2⟩ | ⟨b, l, h1, h2, h3⟩
      · simp [h2, same] at hs
      · refine ⟨i, l, by simp, by simp [h2], ?_⟩
        rw [h2] at hs
        simp only [same, Individual.eq, Bool.and_eq_true] at hs
        have heq := hs.2.1
        simp only [better, h1] at hb
        rcases h3 with h3 | h3
        · -- equal scores cannot be better
          subst h3
          exfalso
          revert heq hb
          simp only [Individual.lt, Individual.toFloat]
          cases (s.store i).SSE <;> cases (s.store b).SSE <;>
            simp [PyFloat.eq, PyFloat.lt, PyFloat.zero]
          rename_i x y
          intro hlt hxy
          subst hxy
          revert hlt
          split_ifs <;> simp
        · right
          revert heq h3
          cases (s.store i).SSE <;> cases (s.store b).SSE <;> cases (s.store l).SSE <;>
            simp [PyFloat.eq, equivSSE]
          rename_i x y z
          intro hxz
          subst hxz
          by_cases hx : x = 0
          · simp [hx]
          · simp [hx]
    | false =>
      cases he : equivLast s i with
      | false => exact ⟨i, i, by simp, by simp, Or.inl rfl⟩
      | true =>
        rcases h with ⟨_, h2⟩ | ⟨b, l, h1, h2, h3⟩
        · simp [h2, equivLast] at he
        · exact ⟨i, l, by simp, by simp [h2], Or.inr (by simpa [equivLast, h2] using he)⟩

/-- Reports without force, callbacks without complaints. -/
def Plain : Event → Prop
  | .report _ _ _ f => f = false
  | .handled ok => ok = false
  | _ => True

theorem CloseInv.congr {s t : St} (h : CloseInv s) (h1 : t.store = s.store) (h2 : t.iBest = s.iBest)
    (h3 : t.iLast = s.iLast) : CloseInv t := by
  unfold CloseInv
  rw [h1, h2, h3]
  exact h

theorem forLoop_last (n : ℕ) (s : St) (i k : ℕ) : (forLoop n s i k).iLast = s.iLast := by
  unfold forLoop
  split_ifs <;> first | exact whileLoop_last n s | rfl

theorem put_close (s : St) (np : Bool) (c : Char) (h : CloseInv s) : CloseInv (put s np c) := by
  refine h.congr (put_store _ _ _) (put_best _ _ _) ?_
  unfold put
  split_ifs <;> rfl

theorem step_close (n : ℕ) (s s' : St) (e : Event) (he : Plain e) (h : CloseInv s)
    (hs : step n s e = some s') : CloseInv s' := by
  cases e with
  | report i o np f =>
    simp only [step, Option.some.injEq] at hs
    simp only [Plain] at he
    subst hs he
    have hc : CloseInv (call n s i o np false).1 := by
      unfold call
      cases o with
      | none =>
        cases s.iBest <;> simp only <;> split_ifs <;>
          first
            | exact put_close _ _ _ h
            | exact put_close _ _ _ (newBest_last n s i h)
      | some o =>
        simp only
        split_ifs
        · exact (put_close _ np '+' (newBest_last n _ i (put_close s np _ h))).congr rfl rfl rfl
        · exact put_close _ _ _ h
    unfold report
    split_ifs
    · exact h
    · simp only
      split
      · exact hc
      · exact hc.congr rfl rfl rfl
  | abort =>
    simp only [step, Option.some.injEq] at hs
    subst hs
    exact h.congr rfl rfl rfl
  | returned r =>
    simp only [step] at hs
    cases hp : s.phase <;> simp only [hp, reduceCtorEq] at hs
    cases r with
    | nothing =>
      simp only [Option.some.injEq] at hs; subst hs
      exact h.congr (forLoop_store _ _ _ _) (forLoop_best _ _ _ _) (forLoop_last _ _ _ _)
    | complaint =>
      simp only at hs
      split_ifs at hs <;> simp only [Option.some.injEq] at hs <;> subst hs
      · exact h.congr rfl rfl rfl
      · exact h.congr (forLoop_store _ _ _ _) (forLoop_best _ _ _ _) (forLoop_last _ _ _ _)
    | failure =>
      simp only [Option.some.injEq] at hs; subst hs
      exact h.congr (whileLoop_store _ _) (whileLoop_best _ _) (whileLoop_last _ _)
  | handled ok =>
    simp only [Plain] at he
    subst he
    simp only [step] at hs
    cases hp : s.phase <;> simp only [hp, reduceCtorEq] at hs
    simp only [if_false, Option.some.injEq] at hs
    subst hs
    exact h.congr rfl rfl rfl

/-- C62: in every execution without forced reports and without complaints, the individual last handed
to the callbacks is the remembered best, or its score differs from it by less than two percent. -/
theorem C62_delivered_close (n : ℕ) (st : ℕ → Individual) (es : List Event) (s : St) (b : ℕ)
    (hes : ∀ e ∈ es, Plain e) (hs : run n (new st) es = some s) (hb : s.iBest = some b) :
    ∃ l, s.iLast = some l ∧ (b = l ∨ ∃ x y : ℚ, (s.store b).SSE = .fin x ∧
      (s.store l).SSE = .fin y ∧ |x / y - 1| < 2 / 100) := by
  have hrun : ∀ (es : List Event) (s s' : St), (∀ e ∈ es, Plain e) → CloseInv s →
      run n s es = some s' → CloseInv s' := by
    intro es
    induction es with
    | nil =>
      intro s s' _ h hs
      simp only [run, Option.some.injEq] at hs
      exact hs ▸ h
    | cons e es ih =>
      intro s s' he h hs
      simp only [run] at hs
      cases h1 : step n s e with
      | none => simp [h1] at hs
      | some s1 =>
        simp only [h1] at hs
        exact ih s1 s' (fun x hx => he x (List.mem_cons_of_mem _ hx))
          (step_close n s s1 e (he e List.mem_cons_self) h h1) hs
  rcases hrun es _ s hes (Or.inl ⟨rfl, rfl⟩) hs with ⟨h1, _⟩ | ⟨b', l, h1, h2, h3⟩
  · rw [h1] at hb; exact absurd hb (by simp)
  · rw [h1] at hb
    cases hb
    refine ⟨l, h2, ?_⟩
    rcases h3 with h3 | h3
    · exact Or.inl h3
    · right
      revert h3
      cases (s.store b).SSE <;> cases (s.store l).SSE <;> simp only [equivSSE, Bool.false_eq_true,
        false_implies]
      rename_i x y
      split_ifs
      · simp
      · intro h
        exact ⟨x, y, rfl, rfl, by simpa using h⟩

example : (run 1 (new fun i => ⟨some (.fin (100 - i)), [(i : ℚ)]⟩)
    [.report 0 none false false, .returned .nothing, .report 1 none false false,
      .report 3 none false false, .returned .nothing, .report 4 none false false]).map
      (fun s => (s.iBest, s.iLast, keys s.log)) = some (some 4, some 3, [(0, 0), (0, 3)]) := by
  decide +kernel

/-- Two callbacks, one report while they are running. -/
def exEvents : List Event := [.report 0 none false false, .report 1 none false false, .returned .nothing]

/-- The state after them. -/
def exState : St := (run 2 (new sample) exEvents).get (by decide +kernel)

example := C48_batches 2 sample exEvents exState (eq_get (by decide +kernel))

example := C48_call_content 2 sample exEvents exState (eq_get (by decide +kernel))

example := C48_settles 2 exState 0 1 (by decide +kernel)
  (by decide +kernel) (by decide)

end Reporter
end Ade
