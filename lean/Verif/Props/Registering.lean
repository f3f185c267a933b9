import Verif.Props.ReporterCallbacks
import Verif.Model.Registering
import Verif.Lemmas.Cases

/-!
# Callbacks registered at any time (C122)

A batch is the calls for one individual.  `(m, i)` stands for the batch of the first `m` callbacks on individual `i`.
-/

set_option autoImplicit false

namespace Ade
namespace Registering

open Reporter (batch keys SameValues same same_values whileLoop forLoop runCallbacks newBest put call report Phase
  whileLoop_stopped whileLoop_running forLoop_running forLoop_stopped runCallbacks_running complain_fields
  complain batch_succ better msgRatio)

/-- The calls of several batches of several sizes. -/
def batches (full : List (ℕ × ℕ)) : List (ℕ × ℕ) := full.flatMap fun p => batch p.1 p.2

theorem batches_append (a b : List (ℕ × ℕ)) : batches (a ++ b) = batches a ++ batches b := by
  simp [batches]

/-- Two properties of executions: `Q` of the batches completed, `R` of the batches completed and the individual whose
batch is in progress. -/
structure Inst where
  Q : List (ℕ × ℕ) → Prop
  R : List (ℕ × ℕ) → ℕ → Prop

/-- They go together: a batch may begin any time, and is complete when `n` callbacks have been called. -/
structure Inst.Closed (p : Inst) (n : ℕ) : Prop where
  enter : ∀ full i, p.Q full → p.R full i
  leave : ∀ full i, p.R full i → p.Q (full ++ [(n, i)])

variable {p : Inst}

/-- What is known between batches (see `Reporter.Between`). -/
structure Between (p : Inst) (s : Reporter.St) (full : List (ℕ × ℕ)) : Prop where
  q : p.Q full
  log : keys s.log = batches full
  prev : ∀ j, s.iPrev = some j → full.getLast?.map Prod.snd = some j
  bag : ∀ x, s.bag = some x → s.iLast = some x
  last : ∀ l, s.iLast = some l → s.bag = some l ∨
    s.bag = none ∧ ∃ j, full.getLast?.map Prod.snd = some j ∧ SameValues s j l

/-- What is known during a batch. -/
structure During (p : Inst) (n : ℕ) (s : Reporter.St) (i k : ℕ) : Prop where
  lt : k < n
  prev : s.iPrev = some i
  log : ∃ full, p.R full i ∧ keys s.log = batches full ++ batch (k + 1) i
  bag : ∀ x, s.bag = some x → s.iLast = some x
  last : ∀ l, s.iLast = some l → s.bag = some l ∨ s.bag = none ∧ SameValues s i l

/-- The calls made, after an abort too. -/
def Stopped (p : Inst) (n : ℕ) (s : Reporter.St) : Prop :=
  ∃ full m i, m ≤ n ∧ p.R full i ∧ keys s.log = batches full ++ batch m i

/-- The invariant while the population is running (see `Reporter.Inv`). -/
def Inv (p : Inst) (n : ℕ) (s : Reporter.St) : Prop :=
  match s.phase with
  | .idle => s.bag = none ∧ ∃ full, Between p s full
  | .calling i k | .complaining i k => During p n s i k
  | .dead => Stopped p n s

theorem Inv.stopped {n : ℕ} {s : Reporter.St} (hp : p.Closed n) (h : Inv p n s) : Stopped p n s := by
  unfold Inv at h
  cases hq : s.phase with
  | idle =>
    simp only [hq] at h
    obtain ⟨_, full, hf⟩ := h
    exact ⟨full, 0, 0, Nat.zero_le _, hp.enter _ _ hf.q, by simp [hf.log, batch]⟩
  | calling i k =>
    simp only [hq] at h
    obtain ⟨full, hr, hf⟩ := h.log
    exact ⟨full, k + 1, i, h.lt, hr, hf⟩
  | complaining i k =>
    simp only [hq] at h
    obtain ⟨full, hr, hf⟩ := h.log
    exact ⟨full, k + 1, i, h.lt, hr, hf⟩
  | dead =>
    simp only [hq] at h
    exact h

theorem whileLoop_inv {n : ℕ} {s : Reporter.St} {full : List (ℕ × ℕ)} (hp : p.Closed n) (hr : s.running = true)
    (h : Between p s full) : Inv p n (whileLoop n s) := by
  unfold whileLoop
  cases hb : s.bag with
  | none =>
    simp only [Inv]
    refine ⟨trivial, full, ⟨h.q, h.log, h.prev, by simp, fun l hl => ?_⟩⟩
    have h' := h.last l hl
    rw [hb] at h'
    exact h'
  | some i =>
    simp only [hr, Bool.not_true, Bool.false_eq_true, if_false]
    have hl : s.iLast = some i := h.bag i hb
    split_ifs with h1 h2
    · simp only [Inv]
      refine ⟨trivial, full, ⟨h.q, h.log, h.prev, by simp, ?_⟩⟩
      intro l hl'
      refine Or.inr ⟨rfl, ?_⟩
      simp only at hl'
      rw [hl] at hl'
      cases hl'
      cases hq : s.iPrev with
      | none => simp [hq, same] at h1
      | some j =>
        rw [hq] at h1
        exact ⟨j, h.prev j hq, (same_values h1).symm⟩
    · simp only [Inv]
      refine ⟨trivial, full ++ [(n, i)], ⟨hp.leave _ _ (hp.enter _ _ h.q), ?_, ?_, by simp, ?_⟩⟩
      · simp [h.log, h2, batch, batches]
      · intro j hj
        simp only [Option.some.injEq] at hj
        simp [hj]
      · intro l hl'
        simp only at hl'
        rw [hl] at hl'
        cases hl'
        exact Or.inr ⟨rfl, i, by simp, rfl⟩
    · simp only [Inv]
      refine ⟨Nat.pos_of_ne_zero h2, rfl, ⟨full, hp.enter _ _ h.q, ?_⟩, by simp, ?_⟩
      · have := h.log
        simp only [keys] at this ⊢
        simp [this, batch]
      · intro l hl'
        simp only at hl'
        rw [hl] at hl'
        cases hl'
        exact Or.inr ⟨rfl, rfl⟩

theorem forLoop_inv {n : ℕ} {s : Reporter.St} {i k : ℕ} (hp : p.Closed n) (hr : s.running = true)
    (h : During p n s i k) : Inv p n (forLoop n s i (k + 1)) := by
  obtain ⟨full, hR, hf⟩ := h.log
  unfold forLoop
  by_cases hk : k + 1 < n
  · rw [if_pos hk]
    simp only [hr, Bool.not_true, Bool.false_eq_true, if_false, Inv]
    refine ⟨hk, h.prev, ⟨full, hR, ?_⟩, h.bag, h.last⟩
    simp only [keys] at hf ⊢
    rw [List.map_append, hf, batch_succ (k + 1) i, List.append_assoc]
    rfl
  · rw [if_neg hk]
    have hkn : k + 1 = n := by have := h.lt; omega
    refine whileLoop_inv (full := full ++ [(n, i)]) hp hr ⟨hp.leave _ _ hR, ?_, ?_, h.bag, ?_⟩
    · rw [hf, hkn, batches_append]; simp [batches]
    · intro j hj
      rw [h.prev] at hj
      cases hj
      simp
    · intro l hl
      rcases h.last l hl with h1 | ⟨h1, h2⟩
      · exact Or.inl h1
      · exact Or.inr ⟨h1, i, by simp, h2⟩

theorem runCallbacks_inv {n : ℕ} {s : Reporter.St} {i : ℕ} (o : Option ℕ) (hp : p.Closed n) (hr : s.running = true)
    (h : Inv p n s) :
    Inv p n (runCallbacks n { s with iLast := some i } i o) := by
  unfold runCallbacks
  simp only
  by_cases hq : s.phase = .idle
  · rw [if_pos hq]
    unfold Inv at h
    simp only [hq] at h
    obtain ⟨hb, full, hf⟩ := h
    exact whileLoop_inv (full := full) hp (by exact hr)
      ⟨hf.q, hf.log, by simp, by simp, by
        intro l hl'
        exact Or.inl hl'⟩
  · rw [if_neg hq]
    unfold Inv at h ⊢
    cases hq' : s.phase with
    | idle => exact absurd hq' hq
    | calling j k =>
      simp only [hq'] at h ⊢
      exact ⟨h.lt, h.prev, h.log, by simp, by
        intro l hl'
        exact Or.inl hl'⟩
    | complaining j k =>
      simp only [hq'] at h ⊢
      exact ⟨h.lt, h.prev, h.log, by simp, by
        intro l hl'
        exact Or.inl hl'⟩
    | dead =>
      simp only [hq'] at h ⊢
      exact h

theorem Inv.congr {n : ℕ} {s t : Reporter.St} (h : Inv p n s) (h1 : t.store = s.store) (h2 : t.iLast = s.iLast)
    (h3 : t.bag = s.bag) (h4 : t.iPrev = s.iPrev) (h5 : t.phase = s.phase) (h6 : t.log = s.log) :
    Inv p n t := by
  obtain ⟨a, b, c, d, e, f, g, i, j, k, l⟩ := s
  obtain ⟨a', b', c', d', e', f', g', i', j', k', l'⟩ := t
  simp only at h1 h2 h3 h4 h5 h6
  subst h1 h2 h3 h4 h5 h6
  unfold Inv at h ⊢
  cases g' with
  | idle =>
    obtain ⟨h1, full, h2⟩ := h
    exact ⟨h1, full, ⟨h2.q, h2.log, h2.prev, h2.bag, h2.last⟩⟩
  | calling => exact ⟨h.lt, h.prev, h.log, h.bag, h.last⟩
  | complaining => exact ⟨h.lt, h.prev, h.log, h.bag, h.last⟩
  | dead => exact h

theorem newBest_inv {n : ℕ} {s : Reporter.St} (i : ℕ) (f : Bool) (hp : p.Closed n) (hr : s.running = true)
    (h : Inv p n s) : Inv p n (newBest n s i f) ∧ (newBest n s i f).running = true := by
  unfold newBest
  simp only
  generalize ht : (if better s i = true then { s with iBest := some i } else s) = t
  have hi : Inv p n t ∧ t.running = true := by
    subst ht
    split_ifs
    · exact ⟨h.congr rfl rfl rfl rfl rfl rfl, hr⟩
    · exact ⟨h, hr⟩
  split_ifs
  all_goals first
    | exact hi
    | exact ⟨runCallbacks_inv _ hp hi.2 hi.1,
        by rw [runCallbacks_running]; exact hi.2⟩

theorem put_inv {n : ℕ} {s : Reporter.St} (np : Bool) (c : Char) (h : Inv p n s ∧ s.running = true) :
    Inv p n (put s np c) ∧ (put s np c).running = true := by
  unfold put
  split_ifs
  · exact h
  · exact ⟨h.1.congr rfl rfl rfl rfl rfl rfl, h.2⟩

theorem call_inv {n : ℕ} {s : Reporter.St} (i : ℕ) (o : Option ℕ) (np f : Bool) (hp : p.Closed n)
    (hr : s.running = true) (h : Inv p n s) :
    Inv p n (call n s i o np f).1 ∧ (call n s i o np f).1.running = true := by
  unfold call
  cases o with
  | none =>
    cases s.iBest <;> simp only <;> split_ifs <;>
      first
        | exact put_inv _ _ ⟨h, hr⟩
        | exact put_inv _ _ (newBest_inv i f hp hr h)
  | some o =>
    have h1 := put_inv np (msgRatio (s.store o) (s.store i) '!').2 ⟨h, hr⟩
    simp only
    split_ifs
    · have h2 := put_inv np '+' (newBest_inv i f hp h1.2 h1.1)
      exact ⟨h2.1.congr rfl rfl rfl rfl rfl rfl, h2.2⟩
    · exact h1

theorem report_inv {n : ℕ} {s : Reporter.St} (i : ℕ) (o : Option ℕ) (np f : Bool) (hp : p.Closed n)
    (hr : s.running = true) (h : Inv p n s) :
    Inv p n (report n s i o np f).1 ∧ (report n s i o np f).1.running = true := by
  have h1 := call_inv i o np f hp hr h
  unfold report
  rw [hr]
  simp only [Bool.not_true, Bool.false_eq_true, if_false]
  split
  · exact h1
  · exact ⟨h1.1.congr rfl rfl rfl rfl rfl rfl, h1.2⟩

/-- Invariant of all executions. -/
def Good (p : Inst) (n : ℕ) (s : Reporter.St) : Prop := (s.running = true → Inv p n s) ∧ Stopped p n s

theorem rep_good {n : ℕ} {s s' : Reporter.St} {e : Reporter.Event} (hp : p.Closed n) (h : Good p n s)
    (hs : Reporter.step n s e = some s') : Good p n s' := by
  have run1 : s'.running = true → Inv p n s' → Good p n s' := fun _ h2 => ⟨fun _ => h2, h2.stopped hp⟩
  have run0 : s'.running = false → s'.log = s.log → Good p n s' := by
    intro h1 h2
    refine ⟨fun h3 => by rw [h1] at h3; exact absurd h3 (by simp), ?_⟩
    have := h.2
    unfold Stopped at this ⊢
    rw [h2]
    exact this
  cases hr : s.running with
  | false =>
    cases e with
    | report i o np f =>
      simp only [Reporter.step, report, hr, Bool.not_false, if_true, Option.some.injEq] at hs
      subst hs
      exact run0 hr rfl
    | abort =>
      simp only [Reporter.step, Option.some.injEq] at hs
      subst hs
      exact run0 rfl rfl
    | returned r =>
      simp only [Reporter.step] at hs
      cases hq : s.phase <;> simp only [hq, reduceCtorEq] at hs
      rename_i i k
      have h1 := forLoop_stopped n s i (k + 1) hr
      cases r with
      | nothing =>
        simp only [Option.some.injEq] at hs; subst hs
        exact run0 h1.2 h1.1
      | complaint =>
        simp only [hr, Bool.and_false, Bool.false_eq_true, if_false, Option.some.injEq] at hs
        subst hs
        exact run0 h1.2 h1.1
      | failure =>
        simp only [Option.some.injEq] at hs; subst hs
        have h2 := whileLoop_stopped n { s with running := false } rfl
        exact run0 h2.2.2 h2.1
    | handled ok =>
      simp only [Reporter.step] at hs
      cases hq : s.phase <;> simp only [hq, reduceCtorEq] at hs
      rename_i i k
      split_ifs at hs <;> simp only [Option.some.injEq] at hs <;> subst hs
      · have hc := complain_fields s i
        have h1 := forLoop_stopped n (complain s i) i (k + 1) (by rw [hc.2.2.2.2.1]; exact hr)
        exact run0 h1.2 (h1.1.trans hc.2.2.2.1)
      · exact run0 hr rfl
  | true =>
    have hi : Inv p n s := h.1 hr
    cases e with
    | report i o np f =>
      simp only [Reporter.step, Option.some.injEq] at hs
      subst hs
      have := report_inv i o np f hp hr hi
      exact run1 this.2 this.1
    | abort =>
      simp only [Reporter.step, Option.some.injEq] at hs
      subst hs
      exact run0 rfl rfl
    | returned r =>
      simp only [Reporter.step] at hs
      cases hq : s.phase <;> simp only [hq, reduceCtorEq] at hs
      rename_i i k
      unfold Inv at hi
      simp only [hq] at hi
      have h1 := forLoop_inv hp hr hi
      cases r with
      | nothing =>
        simp only [Option.some.injEq] at hs; subst hs
        exact run1 (by rw [forLoop_running]; exact hr) h1
      | complaint =>
        simp only at hs
        split_ifs at hs <;> simp only [Option.some.injEq] at hs <;> subst hs
        · exact run1 hr (by unfold Inv; exact ⟨hi.lt, hi.prev, hi.log, hi.bag, hi.last⟩)
        · exact run1 (by rw [forLoop_running]; exact hr) h1
      | failure =>
        simp only [Option.some.injEq] at hs; subst hs
        have h2 := whileLoop_stopped n { s with running := false } rfl
        exact run0 h2.2.2 h2.1
    | handled ok =>
      simp only [Reporter.step] at hs
      cases hq : s.phase <;> simp only [hq, reduceCtorEq] at hs
      rename_i i k
      unfold Inv at hi
      simp only [hq] at hi
      split_ifs at hs <;> simp only [Option.some.injEq] at hs <;> subst hs
      · obtain ⟨c1, c2, c3, c4, c5, c6, c7⟩ := complain_fields s i
        refine run1 (by rw [forLoop_running, c5]; exact hr) (forLoop_inv hp (by rw [c5]; exact hr)
          ⟨hi.lt, by rw [c3]; exact hi.prev, by rw [c4]; exact hi.log, by rw [c1, c2]; exact hi.bag, ?_⟩)
        rw [c1, c2]
        intro l hl
        rcases hi.last l hl with b1 | ⟨b1, b2⟩
        · exact Or.inl b1
        · exact Or.inr ⟨b1, by unfold SameValues; rw [c7, c7]; exact b2⟩
      · obtain ⟨full, a1, a2⟩ := hi.log
        exact run1 hr (by unfold Inv; exact ⟨full, k + 1, i, hi.lt, a1, a2⟩)

/-- More callbacks do not disturb anything. -/
theorem Good.mono {q : Inst} {n m : ℕ} {s : Reporter.St} (hnm : n ≤ m) (hQ : ∀ f, p.Q f → q.Q f)
    (hR : ∀ f i, p.R f i → q.R f i) (h : Good p n s) : Good q m s := by
  have hst : Stopped p n s → Stopped q m s := fun ⟨full, k, i, h1, h2, h3⟩ =>
    ⟨full, k, i, h1.trans hnm, hR _ _ h2, h3⟩
  refine ⟨fun hr => ?_, hst h.2⟩
  have hi := h.1 hr
  have hd : ∀ i k, During p n s i k → During q m s i k := fun i k hd =>
    ⟨hd.lt.trans_le hnm, hd.prev, by
      obtain ⟨full, a, b⟩ := hd.log
      exact ⟨full, hR _ _ a, b⟩, hd.bag, hd.last⟩
  unfold Inv at hi ⊢
  cases hq : s.phase with
  | idle =>
    simp only [hq] at hi ⊢
    obtain ⟨hb, full, hf⟩ := hi
    exact ⟨hb, full, ⟨hQ _ hf.q, hf.log, hf.prev, hf.bag, hf.last⟩⟩
  | calling i k => simp only [hq] at hi ⊢; exact hd i k hi
  | complaining i k => simp only [hq] at hi ⊢; exact hd i k hi
  | dead => simp only [hq] at hi ⊢; exact hst hi

theorem run_good {q : ℕ → Inst} {n0 : ℕ} (hc : ∀ m, n0 ≤ m → (q m).Closed m)
    (hQ : ∀ m f, (q m).Q f → (q (m + 1)).Q f) (hR : ∀ m f i, (q m).R f i → (q (m + 1)).R f i)
    (es : List Event) : ∀ (s s' : St), n0 ≤ s.cbs.length → Good (q s.cbs.length) s.cbs.length s.rep →
      run s es = some s' → Good (q s'.cbs.length) s'.cbs.length s'.rep := by
  induction es with
  | nil =>
    intro s s' _ h hs
    simp only [run, Option.some.injEq] at hs
    exact hs ▸ h
  | cons e es ih =>
    intro s s' hn h hs
    simp only [run] at hs
    cases h1 : step s e with
    | none => simp [h1] at hs
    | some s1 =>
      simp only [h1] at hs
      cases e with
      | add a =>
        simp only [step, Option.some.injEq] at h1
        subst h1
        cases a with
        | other => exact ih s s' hn h hs
        | callable f =>
          refine ih _ s' ?_ ?_ hs
          · simp only [addCallback, List.length_append, List.length_singleton]; omega
          · simp only [addCallback, List.length_append, List.length_singleton]
            exact h.mono (Nat.le_succ _) (hQ _) (hR _)
      | ev e =>
        simp only [step, Option.map_eq_some_iff] at h1
        obtain ⟨r, h2, rfl⟩ := h1
        exact ih { s with rep := r } s' hn (rep_good (hc _ hn) h h2) hs

/-- The callables among the objects given to `addCallback`, in order. -/
def added (es : List Event) : List ℕ :=
  es.filterMap fun e => match e with
    | .add (.callable f) => some f
    | _ => none

/-- C122: the registered callbacks are the callables given to `addCallback`, in order; nothing else changes the list. -/
theorem C122_registered (es : List Event) : ∀ (s s' : St), run s es = some s' → s'.cbs = s.cbs ++ added es := by
  induction es with
  | nil =>
    intro s s' hs
    simp only [run, Option.some.injEq] at hs
    simp [hs, added]
  | cons e es ih =>
    intro s s' hs
    simp only [run] at hs
    cases h1 : step s e with
    | none => simp [h1] at hs
    | some s1 =>
      simp only [h1] at hs
      have h2 := ih s1 s' hs
      cases e with
      | add a =>
        simp only [step, Option.some.injEq] at h1
        subst h1
        cases a with
        | other => simpa [added, addCallback] using h2
        | callable f => simpa [added, addCallback] using h2
      | ev e =>
        simp only [step, Option.map_eq_some_iff] at h1
        obtain ⟨r, _, rfl⟩ := h1
        simpa [added] using h2

/-- C122: registering makes no call and changes nothing else, whatever is going on; an object that is not callable is
refused. -/
theorem C122_adding (s : St) (a : Arg) :
    (addCallback s a).1.rep = s.rep ∧ ((addCallback s a).2 = true ↔ a = .other) ∧
      ((addCallback s a).2 = true → (addCallback s a).1 = s) := by
  cases a <;> simp [addCallback]

example : (addCallback ⟨[3], Reporter.new Reporter.sample⟩ .other).2 = true ∧
    (addCallback ⟨[3], Reporter.new Reporter.sample⟩ (.callable 4)).1.cbs = [3, 4] := by decide

/-- The calls made so far: which callback, on which individual. -/
def made (s : St) : List (Option ℕ × ℕ) := s.rep.log.map fun c => (s.cbs[c.k]?, c.i)

/-- The calls of the callbacks `fs` on individual `i`. -/
def calls (fs : List ℕ) (i : ℕ) : List (Option ℕ × ℕ) := fs.map fun f => (some f, i)

theorem batch_calls (cbs : List ℕ) (m i : ℕ) (hm : m ≤ cbs.length) :
    (batch m i).map (fun q => (cbs[q.1]?, q.2)) = calls (cbs.take m) i := by
  simp only [batch, calls, List.map_map]
  apply List.ext_getElem
  · simp [hm]
  · intro k h1 h2
    simp only [List.length_map, List.length_range] at h1
    simp only [List.getElem_map, List.getElem_range, Function.comp_apply, List.getElem_take]
    rw [List.getElem?_eq_getElem (by omega)]

theorem batches_calls (cbs : List ℕ) (full : List (ℕ × ℕ)) (h : ∀ q ∈ full, q.1 ≤ cbs.length) :
    (batches full).map (fun q => (cbs[q.1]?, q.2)) = full.flatMap fun q => calls (cbs.take q.1) q.2 := by
  induction full with
  | nil => rfl
  | cons q full ih =>
    have h1 := batch_calls cbs q.1 q.2 (h q (by simp))
    have h2 := ih fun r hr => h r (by simp [hr])
    simp only [batches, List.flatMap_cons, List.map_append] at h2 ⊢
    rw [h1, h2]

theorem made_keys (s : St) : made s = (keys s.rep.log).map fun q => (s.cbs[q.1]?, q.2) := by
  simp [made, keys]

/-- The batches are of increasing size, at least `n0` and at most `n`. -/
def sizes (n0 n : ℕ) : Inst where
  Q full := (full.map Prod.fst).Pairwise (· ≤ ·) ∧ ∀ q ∈ full, n0 ≤ q.1 ∧ q.1 ≤ n
  R full _ := (full.map Prod.fst).Pairwise (· ≤ ·) ∧ ∀ q ∈ full, n0 ≤ q.1 ∧ q.1 ≤ n

theorem sizes_closed {n0 n : ℕ} (h : n0 ≤ n) : (sizes n0 n).Closed n := by
  refine ⟨fun _ _ h => h, fun full i hf => ⟨?_, ?_⟩⟩
  · rw [List.map_append, List.pairwise_append]
    refine ⟨hf.1, by simp, ?_⟩
    intro a ha b hb
    obtain ⟨q, hq, rfl⟩ := List.mem_map.1 ha
    simp only [List.map_cons, List.map_nil, List.mem_singleton] at hb
    subst hb
    exact (hf.2 q hq).2
  · intro q hq
    rcases List.mem_append.1 hq with h1 | h1
    · exact hf.2 q h1
    · rw [List.mem_singleton.1 h1]
      exact ⟨h, le_rfl⟩

theorem new_good (q : Inst) (hq : q.Q []) (n : ℕ) (hc : q.Closed n) (st : ℕ → Individual) :
    Good q n (Reporter.new st) := by
  have : Inv q n (Reporter.new st) := by
    simp only [Inv, Reporter.new]
    exact ⟨trivial, [], ⟨hq, by simp [keys, batches], by simp, by simp, by simp⟩⟩
  exact ⟨fun _ => this, this.stopped hc⟩

theorem run_sizes (st : ℕ → Individual) (es : List Event) (s : St) (hs : run (new st) es = some s) :
    Good (sizes 0 s.cbs.length) s.cbs.length s.rep :=
  run_good (q := sizes 0) (n0 := 0) (fun m _ => sizes_closed (Nat.zero_le m))
    (fun _ _ h => ⟨h.1, fun q hq => ⟨Nat.zero_le _, ((h.2 q hq).2).trans (Nat.le_succ _)⟩⟩)
    (fun _ _ _ h => ⟨h.1, fun q hq => ⟨Nat.zero_le _, ((h.2 q hq).2).trans (Nat.le_succ _)⟩⟩)
    es (new st) s (Nat.zero_le _)
    (new_good (sizes 0 0) ⟨by simp, by simp⟩ 0 (sizes_closed (Nat.zero_le _)) st) hs

/-- C122: in every execution, with callbacks registered at any time, the calls made so far are complete batches, each
of the callbacks registered first, in order of registration, all on the same individual, no batch smaller than the
one before; followed by the beginning of at most one more batch. -/
theorem C122_batches (st : ℕ → Individual) (es : List Event) (s : St) (hs : run (new st) es = some s) :
    ∃ (full : List (ℕ × ℕ)) (m i : ℕ), m ≤ s.cbs.length ∧ (∀ q ∈ full, q.1 ≤ s.cbs.length) ∧
      (full.map Prod.fst).Pairwise (· ≤ ·) ∧
      made s = (full.flatMap fun q => calls (s.cbs.take q.1) q.2) ++ calls (s.cbs.take m) i := by
  obtain ⟨full, m, i, hm, hR, hl⟩ := (run_sizes st es s hs).2
  refine ⟨full, m, i, hm, fun q hq => (hR.2 q hq).2, hR.1, ?_⟩
  rw [made_keys, hl, List.map_append, batch_calls _ _ _ hm, batches_calls _ _ fun q hq => (hR.2 q hq).2]

/-- C122: in every execution that has settled (still running, no callbacks in progress), the last batch was a complete
one and delivered the parameter values of the individual last reported. -/
theorem C122_last_delivered (st : ℕ → Individual) (es : List Event) (s : St) (l : ℕ)
    (hs : run (new st) es = some s) (hr : s.rep.running = true) (hp : s.rep.phase = .idle)
    (hl : s.rep.iLast = some l) :
    ∃ (full : List (ℕ × ℕ)) (m j : ℕ), m ≤ s.cbs.length ∧ (∀ q ∈ full, q.1 ≤ m) ∧
      (s.rep.store j).values = (s.rep.store l).values ∧
      made s = (full.flatMap fun q => calls (s.cbs.take q.1) q.2) ++ calls (s.cbs.take m) j := by
  have h := (run_sizes st es s hs).1 hr
  unfold Inv at h
  simp only [hp] at h
  obtain ⟨hb, full, hf⟩ := h
  rcases hf.last l hl with h1 | ⟨_, j, h2, h3⟩
  · rw [hb] at h1; exact absurd h1 (by simp)
  · rw [Option.map_eq_some_iff] at h2
    obtain ⟨⟨m, j'⟩, h4, rfl⟩ := h2
    obtain ⟨ys, rfl⟩ := List.getLast?_eq_some_iff.1 h4
    have hq := hf.q
    have hle : ∀ q ∈ ys ++ [(m, j')], q.1 ≤ s.cbs.length := fun q h => (hq.2 q h).2
    refine ⟨ys, m, j', hle (m, j') (by simp), ?_, h3, ?_⟩
    · intro q hq'
      have := hq.1
      rw [List.map_append, List.pairwise_append] at this
      exact this.2.2 q.1 (List.mem_map.2 ⟨q, hq', rfl⟩) m (by simp)
    · rw [made_keys, hf.log, batches_calls _ _ hle]
      simp

/-- The batch on `i0` that follows the batches `full0` has at least `n1` calls. -/
def joined (full0 : List (ℕ × ℕ)) (i0 n1 n : ℕ) : Inst where
  Q full := (∀ q ∈ full, q.1 ≤ n) ∧ ∃ m rest, n1 ≤ m ∧ full = full0 ++ (m, i0) :: rest
  R full i := (∀ q ∈ full, q.1 ≤ n) ∧
    (full = full0 ∧ i = i0 ∨ ∃ m rest, n1 ≤ m ∧ full = full0 ++ (m, i0) :: rest)

theorem joined_closed {full0 : List (ℕ × ℕ)} {i0 n1 n : ℕ} (h : n1 ≤ n) : (joined full0 i0 n1 n).Closed n := by
  refine ⟨fun _ _ h => ⟨h.1, Or.inr h.2⟩, ?_⟩
  rintro full i ⟨ha, hf⟩
  refine ⟨?_, ?_⟩
  · intro q hq
    rcases List.mem_append.1 hq with h1 | h1
    · exact ha q h1
    · rw [List.mem_singleton.1 h1]
  · rcases hf with ⟨rfl, rfl⟩ | ⟨m, rest, h1, rfl⟩
    · exact ⟨n, [], h, rfl⟩
    · exact ⟨m, rest ++ [(n, i)], h1, by simp⟩

theorem joined_mono {full0 : List (ℕ × ℕ)} {i0 n1 n : ℕ} :
    (∀ f, (joined full0 i0 n1 n).Q f → (joined full0 i0 n1 (n + 1)).Q f) ∧
    ∀ f i, (joined full0 i0 n1 n).R f i → (joined full0 i0 n1 (n + 1)).R f i :=
  ⟨fun _ h => ⟨fun q hq => (h.1 q hq).trans (Nat.le_succ _), h.2⟩,
    fun _ _ h => ⟨fun q hq => (h.1 q hq).trans (Nat.le_succ _), h.2⟩⟩

/-- C122: a callback registered while a batch is in progress is called in that batch (unless an abort or a failed
complaint handler prevents it): when the execution has settled, the batch on that individual includes it. -/
theorem C122_joins (st : ℕ → Individual) (es es' : List Event) (s s' : St) (f i k : ℕ)
    (hs : run (new st) es = some s) (hr : s.rep.running = true) (hp : s.rep.phase = .calling i k)
    (hs' : run s (.add (.callable f) :: es') = some s') (hr' : s'.rep.running = true)
    (hp' : s'.rep.phase = .idle) :
    ∃ pre post m, made s = pre ++ calls (s.cbs.take (k + 1)) i ∧ s.cbs.length + 1 ≤ m ∧
      made s' = pre ++ calls (s'.cbs.take m) i ++ post ∧ (some f, i) ∈ calls (s'.cbs.take m) i := by
  have hg := (run_sizes st es s hs).1 hr
  unfold Inv at hg
  simp only [hp] at hg
  obtain ⟨full0, hR, hlog⟩ := hg.log
  have hle0 : ∀ q ∈ full0, q.1 ≤ s.cbs.length := fun q hq => (hR.2 q hq).2
  have hcbs := C122_registered _ s s' hs'
  have hadd : added (.add (.callable f) :: es') = f :: added es' := by simp [added]
  rw [hadd] at hcbs
  simp only [run, step, addCallback] at hs'
  have hJ : Good (joined full0 i (s.cbs.length + 1) (s.cbs.length + 1)) (s.cbs.length + 1) s.rep := by
    have hle1 : ∀ q ∈ full0, q.1 ≤ s.cbs.length + 1 := fun q hq => (hle0 q hq).trans (Nat.le_succ _)
    refine ⟨fun _ => ?_, full0, k + 1, i, Nat.succ_le_succ (hg.lt.le), ⟨hle1, Or.inl ⟨rfl, rfl⟩⟩, hlog⟩
    unfold Inv
    simp only [hp]
    exact ⟨hg.lt.trans (Nat.lt_succ_self _), hg.prev, ⟨full0, ⟨hle1, Or.inl ⟨rfl, rfl⟩⟩, hlog⟩, hg.bag, hg.last⟩
  have hG := run_good (q := joined full0 i (s.cbs.length + 1)) (n0 := s.cbs.length + 1)
    (fun m hm => joined_closed hm) (fun m => joined_mono.1) (fun m => joined_mono.2) es'
    { s with cbs := s.cbs ++ [f] } s' (by simp) (by simpa using hJ) hs'
  have hi := hG.1 hr'
  unfold Inv at hi
  simp only [hp'] at hi
  obtain ⟨_, full, hf⟩ := hi
  obtain ⟨hle, m, rest, hm, rfl⟩ := hf.q
  have hmle : m ≤ s'.cbs.length := hle (m, i) (by simp)
  have htake : ∀ n, n ≤ s.cbs.length → s'.cbs.take n = s.cbs.take n := by
    intro n hn
    rw [hcbs, List.take_append_of_le_length hn]
  refine ⟨full0.flatMap fun q => calls (s.cbs.take q.1) q.2, rest.flatMap fun q => calls (s'.cbs.take q.1) q.2,
    m, ?_, hm, ?_, ?_⟩
  · rw [made_keys, hlog, List.map_append, batch_calls _ _ _ hg.lt, batches_calls _ _ hle0]
  · rw [made_keys, hf.log, batches_calls _ _ hle, List.flatMap_append, List.flatMap_cons]
    rw [List.append_assoc]
    congr 1
    apply List.flatMap_congr
    intro q hq
    rw [htake _ (hle0 q hq)]
  · simp only [calls, List.mem_map]
    refine ⟨f, ?_, rfl⟩
    rw [List.mem_take_iff_getElem]
    refine ⟨s.cbs.length, ?_, ?_⟩
    · have : s.cbs.length < s'.cbs.length := by rw [hcbs]; simp
      omega
    · simp [hcbs]

/-- The batches after `full0` have at least `n1` calls each. -/
def later (full0 : List (ℕ × ℕ)) (n1 n : ℕ) : Inst where
  Q full := (∀ q ∈ full, q.1 ≤ n) ∧ ∃ rest, full = full0 ++ rest ∧ ∀ q ∈ rest, n1 ≤ q.1
  R full _ := (∀ q ∈ full, q.1 ≤ n) ∧ ∃ rest, full = full0 ++ rest ∧ ∀ q ∈ rest, n1 ≤ q.1

theorem later_closed {full0 : List (ℕ × ℕ)} {n1 n : ℕ} (h : n1 ≤ n) : (later full0 n1 n).Closed n := by
  refine ⟨fun _ _ h => h, ?_⟩
  rintro full i ⟨ha, rest, rfl, hr⟩
  refine ⟨?_, rest ++ [(n, i)], by simp, ?_⟩
  · intro q hq
    rcases List.mem_append.1 hq with h1 | h1
    · exact ha q h1
    · rw [List.mem_singleton.1 h1]
  · intro q hq
    rcases List.mem_append.1 hq with h1 | h1
    · exact hr q h1
    · rw [List.mem_singleton.1 h1]; exact h

/-- C122: from a settled state on, every complete batch calls all the callbacks registered by then (and those
registered before the batch ended, see `C122_joins`). -/
theorem C122_later_batches (st : ℕ → Individual) (es es' : List Event) (s s' : St)
    (hs : run (new st) es = some s) (hr : s.rep.running = true) (hp : s.rep.phase = .idle)
    (hs' : run s es' = some s') :
    ∃ (full : List (ℕ × ℕ)) (m i : ℕ), m ≤ s'.cbs.length ∧
      (∀ q ∈ full, s.cbs.length ≤ q.1 ∧ q.1 ≤ s'.cbs.length) ∧
      made s' = made s ++ (full.flatMap fun q => calls (s'.cbs.take q.1) q.2) ++ calls (s'.cbs.take m) i := by
  have hg := (run_sizes st es s hs).1 hr
  unfold Inv at hg
  simp only [hp] at hg
  obtain ⟨hb, full0, hf0⟩ := hg
  have hle0 : ∀ q ∈ full0, q.1 ≤ s.cbs.length := fun q hq => (hf0.q.2 q hq).2
  have hcbs := C122_registered _ s s' hs'
  have hL : Good (later full0 s.cbs.length s.cbs.length) s.cbs.length s.rep := by
    have : Inv (later full0 s.cbs.length s.cbs.length) s.cbs.length s.rep := by
      unfold Inv
      simp only [hp]
      exact ⟨hb, full0, ⟨⟨hle0, [], by simp, by simp⟩, hf0.log, hf0.prev, hf0.bag, hf0.last⟩⟩
    exact ⟨fun _ => this, this.stopped (later_closed le_rfl)⟩
  have hG := run_good (q := later full0 s.cbs.length) (n0 := s.cbs.length)
    (fun m hm => later_closed hm)
    (fun m f h => ⟨fun q hq => (h.1 q hq).trans (Nat.le_succ _), h.2⟩)
    (fun m f i h => ⟨fun q hq => (h.1 q hq).trans (Nat.le_succ _), h.2⟩) es' s s' le_rfl hL hs'
  obtain ⟨full, m, i, hm, ⟨hle, rest, rfl, hrest⟩, hlog⟩ := hG.2
  refine ⟨rest, m, i, hm, fun q hq => ⟨hrest q hq, hle q (by simp [hq])⟩, ?_⟩
  rw [made_keys, hlog, List.map_append, batch_calls _ _ _ hm, batches_calls _ _ hle, made_keys, hf0.log,
    batches_calls _ _ hle0, List.flatMap_append]
  congr 2
  apply List.flatMap_congr
  intro q hq
  rw [hcbs, List.take_append_of_le_length (hle0 q hq)]

/-- A callback registered, a report, a callback registered while the first is running, then a better individual. -/
def exEvents : List Event :=
  [.add (.callable 10), .add .other, .ev (.report 0 none false false), .add (.callable 11),
    .ev (.returned .nothing), .ev (.report 2 none false false), .ev (.returned .nothing)]

/-- The state after some of them. -/
def exState (k : ℕ) (h : (run (new Reporter.sample) (exEvents.take k)).isSome) : St :=
  (run (new Reporter.sample) (exEvents.take k)).get h

example : (run (new Reporter.sample) (exEvents ++ [.ev (.returned .nothing), .ev (.returned .nothing)])).map
    (fun s => (s.rep.phase, s.cbs, made s)) =
    some (.idle, [10, 11], [(some 10, 0), (some 11, 0), (some 10, 2), (some 11, 2)]) := by decide +kernel

example := C122_registered exEvents (new Reporter.sample) (exState 7 (by decide +kernel)) (eq_get (by decide +kernel))

example := C122_batches Reporter.sample exEvents (exState 7 (by decide +kernel)) (eq_get (by decide +kernel))

/-- The state when both callbacks have been called on the first individual. -/
example := C122_last_delivered Reporter.sample (exEvents.take 5 ++ [.ev (.returned .nothing)])
  ((run (new Reporter.sample) (exEvents.take 5 ++ [.ev (.returned .nothing)])).get (by decide +kernel)) 0
  (eq_get (by decide +kernel)) (by decide +kernel) (by decide +kernel) (by decide +kernel)

/-- The second callback is registered while the first one is running. -/
example := C122_joins Reporter.sample (exEvents.take 3) [.ev (.returned .nothing), .ev (.returned .nothing)]
  (exState 3 (by decide +kernel))
  ((run (exState 3 (by decide +kernel)) (.add (.callable 11) :: [.ev (.returned .nothing), .ev (.returned .nothing)])).get
    (by decide +kernel)) 11 0 0 (eq_get (by decide +kernel)) (by decide +kernel) (by decide +kernel)
  (eq_get (by decide +kernel)) (by decide +kernel) (by decide +kernel)

/-- The first callback is registered before anything is reported. -/
example := C122_later_batches Reporter.sample (exEvents.take 2) (exEvents.drop 2)
  (exState 2 (by decide +kernel)) ((run (exState 2 (by decide +kernel)) (exEvents.drop 2)).get (by decide +kernel))
  (eq_get (by decide +kernel)) (by decide +kernel) (by decide +kernel) (eq_get (by decide +kernel))

end Registering
end Ade
