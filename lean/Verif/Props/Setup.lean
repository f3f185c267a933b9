import Verif.Lemmas.Cases
import Verif.Model.Setup
import Verif.Props.ParamManager

/-!
# Properties C17, C18, C19: setting up the initial population

All statements hold for every sequence of events, i.e. every order in which evaluations finish, every
outcome of each evaluation, and aborts at any time.
-/

set_option autoImplicit false

namespace Ade
namespace Setup

open ParamManager

/-! ## Specification -/

/-- A point that is within the bounds and satisfies the constraints. -/
def Legal (cfg : Cfg) (vs : List ℚ) : Prop :=
  Within cfg.bounds vs ∧ passesConstraints cfg.names cfg.constraints vs = true

/-- The designs have rows of the right length in the unit cube, and the bounds are intervals. -/
structure Proper (cfg : Cfg) : Prop where
  bounds : GoodBounds cfg.bounds
  cube : ∀ n r, (cfg.design n r).length = cfg.bounds.length ∧ UnitCube (cfg.design n r)

/-- The evaluation result is a fatal error: an exception or a negative score. -/
def Fatal : Individual.EvalResult → Prop
  | .failed => True
  | .done none => False
  | .done (some x) => x.lt .zero = true

/-! ## Lemmas -/

theorem rowValues_within {cfg : Cfg} (h : Proper cfg) (s : Src) :
    Within cfg.bounds (rowValues cfg s) :=
  C06_fromUnity_within _ _ h.bounds (h.cube _ _).1 (h.cube _ _).2

theorem getIndividual_legal {cfg : Cfg} (h : Proper cfg) (t : ℕ) (s : Src)
    (hok : (getIndividual cfg t s).2.1 = true) : Legal cfg (getIndividual cfg t s).1 := by
  induction t generalizing s with
  | zero => simp [getIndividual] at hok
  | succ t ih =>
    simp only [getIndividual] at hok ⊢
    by_cases hp : passesConstraints cfg.names cfg.constraints (rowValues cfg (nextIV cfg s).1) = true
    · rw [if_pos hp]
      have hw := rowValues_within h (nextIV cfg s).1
      simp only
      rw [C05_limit_legal _ _ hw]
      exact ⟨hw, hp⟩
    · rw [if_neg hp] at hok ⊢
      by_cases ht : t = 0
      · rw [if_pos ht] at hok; simp at hok
      · rw [if_neg ht] at hok ⊢
        exact ih _ hok

theorem toBool_of_fatal (i : Individual) (r : Individual.EvalResult) :
    (i.finishEval 0 r).1.toBool = false ↔ Fatal r := by
  cases r with
  | failed => simp [Individual.finishEval, Individual.toBool, Individual.setSSE, Fatal, PyFloat.isNaN,
      PyFloat.le, PyFloat.lt, PyFloat.eq, PyFloat.zero]
  | done x =>
    cases x with
    | none => simp [Individual.finishEval, Individual.toBool, Individual.setSSE, Fatal]
    | some x =>
      cases x with
      | nan => simp [Individual.finishEval, Individual.toBool, Individual.setSSE, Fatal, PyFloat.isNaN,
          PyFloat.lt]
      | ninf => simp [Individual.finishEval, Individual.toBool, Individual.setSSE, Fatal,
          PyFloat.isNaN, PyFloat.le, PyFloat.lt, PyFloat.eq, PyFloat.zero]
      | pinf => simp [Individual.finishEval, Individual.toBool, Individual.setSSE, Fatal,
          PyFloat.isNaN, PyFloat.le, PyFloat.lt, PyFloat.eq, PyFloat.zero]
      | fin q =>
        simp [Individual.finishEval, Individual.toBool, Individual.setSSE, Fatal, PyFloat.isNaN,
          PyFloat.le, PyFloat.lt, PyFloat.eq, PyFloat.zero]
        constructor
        · exact fun h => lt_of_le_of_ne h.1 (Ne.symm h.2)
        · exact fun h => ⟨h.le, h.ne'⟩

/-- A member as it should be after an evaluation: the score delivered by one of the events, usable and
not infinite. -/
def Scored (es : List Event) (i : Individual) : Prop :=
  ∃ id x, Event.finish id (.done (some x)) ∈ es ∧ i.stored = some x ∧ x.isInf = false ∧
    x.lt .zero = false

/-- Invariant. `es` are the events so far. -/
structure Inv (cfg : Cfg) (es : List Event) (s : St) : Prop where
  /-- Never too many members. -/
  size : s.members.length ≤ cfg.Np
  /-- Everything is legal while running. -/
  legalF : s.running = true → ∀ f ∈ s.flights, Legal cfg f.ind.values
  legalM : s.running = true → ∀ i ∈ s.members, Legal cfg i.values
  /-- Members were evaluated. -/
  scored : cfg.blank = false → ∀ i ∈ s.members, Scored es i
  /-- A fatal result or an abort ends the run. -/
  fatal : s.running = true → ∀ id r, Event.finish id r ∈ es → ¬ Fatal r
  abort : s.running = true → Event.abort ∉ es
  /-- Only the awaited evaluation is not tracked. -/
  untracked : ∀ f ∈ s.flights, f.tracked = false → s.phase = .waitOne f.id
  /-- Waiting until the end means the loop has ended. -/
  ended : s.phase = .drain → s.running = true → s.members.length = cfg.Np
  done : ∀ b, s.phase = .finished b → s.flights = [] ∧ (b = true → s.running = true ∧
    s.members.length = cfg.Np)
  /-- Numbers of flights. -/
  ids : ∀ f ∈ s.flights, f.id < s.k

theorem inv_start (cfg : Cfg) : Inv cfg [] start := by
  constructor <;> simp [start]

theorem Scored.mono {es : List Event} {i : Individual} (e : Event) (h : Scored es i) :
    Scored (es ++ [e]) i := by
  obtain ⟨id, x, h1, h2⟩ := h
  exact ⟨id, x, List.mem_append_left _ h1, h2⟩

theorem round_inv {cfg : Cfg} (h : Proper cfg) {es : List Event} {s : St} (hs : Inv cfg es s)
    (hr : ready cfg s = true) : Inv cfg (es ++ [.resume]) (round cfg s) := by
  have hunt : ∀ f ∈ s.flights, f.tracked = true := by
    intro f hf
    by_contra hc
    simp only [Bool.not_eq_true] at hc
    have := hs.untracked f hf hc
    simp only [ready, this, List.all_eq_true] at hr
    simpa using hr f hf
  have hfat : s.running = true → ∀ id r, Event.finish id r ∈ es ++ [.resume] → ¬ Fatal r := by
    intro hrun id r hm
    simp only [List.mem_append, List.mem_singleton, reduceCtorEq, or_false] at hm
    exact hs.fatal hrun id r hm
  have hab : s.running = true → Event.abort ∉ es ++ [.resume] := by
    intro hrun
    simpa using hs.abort hrun
  have hsc : cfg.blank = false → ∀ i ∈ s.members, Scored (es ++ [.resume]) i :=
    fun hb i hi => (hs.scored hb i hi).mono _
  unfold round
  by_cases hc : (s.running && needMore cfg s) = true
  · rw [if_pos hc]
    simp only [Bool.and_eq_true, needMore, decide_eq_true_eq] at hc
    obtain ⟨hrun, hmore⟩ := hc
    have hleg := getIndividual_legal h cfg.maxTries s.src
    generalize getIndividual cfg cfg.maxTries s.src = g at hleg
    obtain ⟨v, ok, src⟩ := g
    simp only [hrun, Bool.true_and] at hleg ⊢
    cases hb : cfg.blank with
    | true =>
      simp only [if_true]
      refine ⟨by simp; omega, fun _ => hs.legalF hrun, ?_, by simp [hb], fun _ => hfat hrun,
        fun _ => hab hrun, ?_, by simp, by simp, hs.ids⟩
      · intro hok i hi
        simp only [List.mem_append, List.mem_singleton] at hi
        rcases hi with hi | rfl
        · exact hs.legalM hrun i hi
        · exact hleg hok
      · intro f hf ht
        rw [hunt f hf] at ht; cases ht
    | false =>
      simp only [Bool.false_eq_true, if_false]
      refine ⟨hs.size, ?_, fun _ => hs.legalM hrun, hsc, fun _ => hfat hrun,
        fun _ => hab hrun, ?_, ?_, ?_, ?_⟩
      · intro hok f hf
        simp only [List.mem_append, List.mem_singleton] at hf
        rcases hf with hf | rfl
        · exact hs.legalF hrun f hf
        · exact hleg hok
      · intro f hf ht
        simp only [List.mem_append, List.mem_singleton] at hf
        rcases hf with hf | rfl
        · rw [hunt f hf] at ht; cases ht
        · simp only [decide_eq_false_iff_not] at ht
          simp only [if_neg ht]
      · simp only; split <;> simp
      · simp only; intro b; split <;> simp
      · intro f hf
        simp only [List.mem_append, List.mem_singleton] at hf
        rcases hf with hf | rfl
        · have := hs.ids f hf; simp only; omega
        · simp
  · rw [if_neg hc]
    refine ⟨hs.size, hs.legalF, hs.legalM, hsc, hfat, hab, ?_, ?_, by simp, hs.ids⟩
    · intro f hf ht; rw [hunt f hf] at ht; cases ht
    · intro _ hrun
      simp only [needMore, Bool.and_eq_true, decide_eq_true_eq, not_and, not_lt] at hc
      have := hc hrun
      have := hs.size
      simp only; omega

theorem step_inv {cfg : Cfg} (h : Proper cfg) {es : List Event} {s s' : St} (e : Event)
    (hs : Inv cfg es s) (hst : step cfg s e = some s') : Inv cfg (es ++ [e]) s' := by
  cases e with
  | resume =>
    simp only [step] at hst
    by_cases hr : ready cfg s = true
    · simp only [hr, Bool.not_true, Bool.false_eq_true, if_false] at hst
      by_cases hd : s.phase = .drain
      · rw [if_pos hd] at hst
        injection hst with hst
        subst hst
        have hfl : s.flights = [] := by
          rw [List.eq_nil_iff_forall_not_mem]
          intro f hf
          cases ht : f.tracked with
          | false => have := hs.untracked f hf ht; rw [hd] at this; cases this
          | true =>
            simp only [ready, hd, List.isEmpty_iff, List.filter_eq_nil_iff] at hr
            exact hr f hf ht
        have h1 : cfg.blank = false → ∀ i ∈ s.members, Scored (es ++ [.resume]) i :=
          fun hb i hi => (hs.scored hb i hi).mono _
        unfold done
        cases hrun : s.running with
        | true =>
          simp only [if_true]
          refine ⟨hs.size, fun _ => hs.legalF hrun, fun _ => hs.legalM hrun, h1, ?_, ?_, ?_, by simp,
            ?_, hs.ids⟩
          · intro _ id r hm
            simp only [List.mem_append, List.mem_singleton, reduceCtorEq, or_false] at hm
            exact hs.fatal hrun id r hm
          · intro _; simpa using hs.abort hrun
          · intro f hf; simp [hfl] at hf
          · intro b hb
            exact ⟨hfl, fun _ => ⟨rfl, hs.ended hd hrun⟩⟩
        | false =>
          simp only [Bool.false_eq_true, if_false]
          refine ⟨hs.size, by simp, by simp, h1, by simp, by simp, ?_,
            by simp, ?_, hs.ids⟩
          · intro f hf; simp [hfl] at hf
          · intro b hb
            simp only [Phase.finished.injEq] at hb
            exact ⟨hfl, fun hb' => by rw [← hb] at hb'; cases hb'⟩
      · rw [if_neg hd] at hst
        injection hst with hst
        subst hst
        exact round_inv h hs hr
    · simp only [Bool.not_eq_true] at hr
      simp [hr] at hst
  | finish id r =>
    simp only [step] at hst
    cases hf : s.flights.find? (fun f => f.id == id) with
    | none => rw [hf] at hst; simp at hst
    | some f =>
      rw [hf] at hst
      simp only [Option.some.injEq] at hst
      subst hst
      have hmem := List.mem_of_find?_eq_some hf
      have hid : f.id = id := by simpa using List.find?_some hf
      have hnf : ∀ b, s.phase ≠ .finished b := by
        intro b hb
        have := (hs.done b hb).1
        rw [this] at hmem; cases hmem
      have hsub : ∀ g, g ∈ s.flights.filter (fun f => f.id != id) → g ∈ s.flights :=
        fun g hg => (List.mem_filter.1 hg).1
      have hvals : (f.ind.finishEval 0 r).1.values = f.ind.values := by
        cases r <;> rfl
      have hbool := toBool_of_fatal f.ind r
      have h1 : cfg.blank = false → ∀ i ∈ s.members, Scored (es ++ [.finish id r]) i :=
        fun hb i hi => (hs.scored hb i hi).mono _
      unfold evaluated
      cases hb : (f.ind.finishEval 0 r).1.toBool with
      | false =>
        simp only [Bool.not_false, if_true]
        exact ⟨hs.size, by simp, by simp, h1, by simp, by simp,
          fun g hg ht => hs.untracked g (hsub g hg) ht, by simp,
          fun b hb' => absurd hb' (hnf b), fun g hg => hs.ids g (hsub g hg)⟩
      | true =>
        have hnfat : ¬ Fatal r := by
          intro hc; rw [← hbool] at hc; rw [hc] at hb; cases hb
        have hfat : s.running = true → ∀ id' r', Event.finish id' r' ∈ es ++ [.finish id r] →
            ¬ Fatal r' := by
          intro hrun id' r' hm
          simp only [List.mem_append, List.mem_singleton, Event.finish.injEq] at hm
          rcases hm with hm | ⟨rfl, rfl⟩
          · exact hs.fatal hrun id' r' hm
          · exact hnfat
        have hab : s.running = true → Event.abort ∉ es ++ [.finish id r] := by
          intro hrun; simpa using hs.abort hrun
        simp only [Bool.not_true, Bool.false_eq_true, if_false]
        by_cases hc : (!(f.ind.finishEval 0 r).1.toFloat.isInf &&
            needMore cfg { s with flights := s.flights.filter (fun f => f.id != id) }) = true
        · rw [if_pos hc]
          simp only [Bool.and_eq_true, Bool.not_eq_true', needMore, decide_eq_true_eq] at hc
          refine ⟨by simp; omega, fun hrun g hg => hs.legalF hrun g (hsub g hg), ?_, ?_, hfat, hab,
            fun g hg ht => hs.untracked g (hsub g hg) ht, ?_,
            fun b hb' => absurd hb' (hnf b), fun g hg => hs.ids g (hsub g hg)⟩
          · intro hrun i hi
            simp only [List.mem_append, List.mem_singleton] at hi
            rcases hi with hi | rfl
            · exact hs.legalM hrun i hi
            · rw [hvals]; exact hs.legalF hrun f hmem
          · intro hbl i hi
            simp only [List.mem_append, List.mem_singleton] at hi
            rcases hi with hi | rfl
            · exact h1 hbl i hi
            · -- the newly evaluated individual
              cases r with
              | failed => exact absurd trivial hnfat
              | done x =>
                cases x with
                | none =>
                  have := hc.1
                  simp [Individual.finishEval, Individual.toFloat, Individual.SSE,
                    Individual.setSSE, PyFloat.lt, PyFloat.isInf] at this
                | some x =>
                  have hx : x.lt .zero = false := by
                    simpa [Fatal] using hnfat
                  refine ⟨id, x, by simp, rfl, ?_, hx⟩
                  have := hc.1
                  simpa [Individual.finishEval, Individual.toFloat, Individual.SSE,
                    Individual.setSSE, hx] using this
          · intro hd hrun
            have := hs.ended hd hrun
            omega
        · rw [if_neg hc]
          exact ⟨hs.size, fun hrun g hg => hs.legalF hrun g (hsub g hg), hs.legalM, h1, hfat, hab,
            fun g hg ht => hs.untracked g (hsub g hg) ht, hs.ended,
            fun b hb' => absurd hb' (hnf b), fun g hg => hs.ids g (hsub g hg)⟩
  | abort =>
    simp only [step] at hst
    have hnf : ∀ b, s.phase ≠ .finished b := by
      intro b hb; rw [hb] at hst; simp at hst
    have : s' = { s with running := false } := by
      cases hp : s.phase with
      | finished b => exact absurd hp (hnf b)
      | _ => rw [hp] at hst; simp only [Option.some.injEq] at hst; rw [← hst]
    subst this
    exact ⟨hs.size, by simp, by simp, fun hb i hi => (hs.scored hb i hi).mono _, by simp, by simp,
      hs.untracked, by simp, fun b hb' => absurd hb' (hnf b), hs.ids⟩

theorem run_inv {cfg : Cfg} (h : Proper cfg) {es₀ : List Event} {s s' : St} (es : List Event)
    (hs : Inv cfg es₀ s) (hr : run cfg s es = some s') : Inv cfg (es₀ ++ es) s' := by
  induction es generalizing s es₀ with
  | nil => simp only [run, Option.some.injEq] at hr; subst hr; simpa using hs
  | cons e es ih =>
    simp only [run] at hr
    cases hst : step cfg s e with
    | none => rw [hst] at hr; simp at hr
    | some s₁ =>
      rw [hst] at hr
      have := ih (step_inv h e hs hst) hr
      simpa using this

/-! ## C17 -/

/-- C17: a setup that completes without abort leaves exactly `Np` members, each legal and each with a
score delivered by an evaluation of this setup that is neither negative nor infinite; no evaluation is
left outstanding. -/
theorem C17_setup_complete (cfg : Cfg) (h : Proper cfg) (hb : cfg.blank = false) (es : List Event)
    (s : St) (hr : run cfg start es = some s) (hd : s.phase = .finished true) :
    s.members.length = cfg.Np ∧ s.flights = [] ∧
      ∀ i ∈ s.members, Legal cfg i.values ∧ Scored es i := by
  have hi := run_inv h es (inv_start cfg) hr
  simp only [List.nil_append] at hi
  obtain ⟨h1, h2⟩ := hi.done _ hd
  obtain ⟨h3, h4⟩ := h2 rfl
  exact ⟨h4, h1, fun i hm => ⟨hi.legalM h3 i hm, hi.scored hb i hm⟩⟩

/-- C17: at no time are there more than `Np` members. -/
theorem C17_never_too_many (cfg : Cfg) (h : Proper cfg) (es : List Event) (s : St)
    (hr : run cfg start es = some s) : s.members.length ≤ cfg.Np :=
  (run_inv h es (inv_start cfg) hr).size

/-- C17 for a blank setup: `Np` legal members. -/
theorem C17_blank_setup (cfg : Cfg) (h : Proper cfg) (es : List Event) (s : St)
    (hr : run cfg start es = some s) (hd : s.phase = .finished true) :
    s.members.length = cfg.Np ∧ ∀ i ∈ s.members, Legal cfg i.values := by
  have hi := run_inv h es (inv_start cfg) hr
  obtain ⟨h3, h4⟩ := (hi.done _ hd).2 rfl
  exact ⟨h4, hi.legalM h3⟩

/-- C17 for a population that has members already, from an earlier setup, say: the members afterwards are all new. -/
theorem C17_again (cfg : Cfg) (h : Proper cfg) (hb : cfg.blank = false) (running : Option Bool)
    (hrun : running ≠ some false) (old : List Individual) (es : List Event) (s : St)
    (hr : run cfg (begin running old) es = some s) (hd : s.phase = .finished true) :
    s.members.length = cfg.Np ∧ s.flights = [] ∧ ∀ i ∈ s.members, Legal cfg i.values ∧ Scored es i := by
  rw [begin, if_neg hrun] at hr
  exact C17_setup_complete cfg h hb es s hr hd

/-- C18: setting up a population that was shut down does nothing: its members stay, it stays shut down, nothing is drawn or
evaluated, and the setup reports that it did not complete. -/
theorem C18_shut_down (cfg : Cfg) (old : List Individual) (es : List Event) (s : St)
    (hr : run cfg (begin (some false) old) es = some s) :
    s.members = old ∧ s.phase = .finished false ∧ s.flights = [] ∧ s.k = 0 ∧ s.running = false ∧ s.src = ⟨0, 0⟩ := by
  rw [begin, if_pos rfl] at hr
  cases es with
  | nil =>
    injection hr with hr
    subst hr
    exact ⟨rfl, rfl, rfl, rfl, rfl, rfl⟩
  | cons e es => cases e <;> simp [run, step, startStopped, ready] at hr

/-- C17: a setup is never stuck: until it is finished it goes on, or an evaluation is outstanding. -/
theorem C17_never_stuck (cfg : Cfg) (hp : 0 < cfg.maxParallel) (s : St)
    (hd : ∀ b, s.phase ≠ .finished b) : ready cfg s = true ∨ s.flights ≠ [] := by
  by_cases hf : s.flights = []
  · left
    unfold ready
    cases hph : s.phase with
    | finished b => exact absurd hph (hd b)
    | _ => simp [hf, hp]
  · exact .inr hf

/-! ## C18 -/

/-- C18: if any evaluation of the setup reports a fatal error, or the population is aborted, the setup
does not complete with success. -/
theorem C18_fatal_aborts (cfg : Cfg) (h : Proper cfg) (es : List Event) (s : St)
    (hr : run cfg start es = some s)
    (hf : (∃ id r, Event.finish id r ∈ es ∧ Fatal r) ∨ Event.abort ∈ es) :
    s.running = false ∧ s.phase ≠ .finished true := by
  have hi := run_inv h es (inv_start cfg) hr
  simp only [List.nil_append] at hi
  have hrun : s.running = false := by
    by_contra hc
    simp only [Bool.not_eq_false] at hc
    rcases hf with ⟨id, r, h1, h2⟩ | h1
    · exact hi.fatal hc id r h1 h2
    · exact hi.abort hc h1
  refine ⟨hrun, fun hd => ?_⟩
  have := ((hi.done _ hd).2 rfl).1
  rw [hrun] at this; cases this

/-- C18: a failed individual is never a member: every member has a usable, non-negative score. -/
theorem C18_failed_never_member (cfg : Cfg) (h : Proper cfg) (hb : cfg.blank = false)
    (es : List Event) (s : St) (hr : run cfg start es = some s) :
    ∀ i ∈ s.members, i.toBool = true := by
  intro i hi
  obtain ⟨id, x, -, hx, -, hlt⟩ := (run_inv h es (inv_start cfg) hr).scored hb i hi
  unfold Individual.toBool
  rw [hx]
  cases x with
  | nan => rfl
  | ninf => simp [PyFloat.lt, PyFloat.zero] at hlt
  | pinf => rfl
  | fin q =>
    simp only [PyFloat.lt, PyFloat.zero, decide_eq_false_iff_not, not_lt] at hlt
    simp only [PyFloat.isNaN, PyFloat.le, PyFloat.lt, PyFloat.eq, PyFloat.zero, Bool.false_eq_true,
      if_false, Bool.or_eq_true, decide_eq_true_eq]
    rcases lt_or_eq_of_le hlt with h | h
    · exact .inl h
    · exact .inr h

/-- C18: once aborted, no further evaluation is started. -/
theorem C18_no_new_evaluation (cfg : Cfg) (s s' : St) (e : Event) (hs : s.running = false)
    (hst : step cfg s e = some s') :
    s'.running = false ∧ s'.k = s.k ∧ ∀ f ∈ s'.flights, f ∈ s.flights := by
  cases e with
  | resume =>
    simp only [step] at hst
    split at hst
    · cases hst
    · split at hst
      · simp only [Option.some.injEq, done, hs, Bool.false_eq_true, if_false] at hst
        subst hst; exact ⟨rfl, rfl, fun _ h => h⟩
      · simp only [Option.some.injEq, round, hs, Bool.false_and, Bool.false_eq_true, if_false] at hst
        subst hst; exact ⟨rfl, rfl, fun _ h => h⟩
  | finish id r =>
    simp only [step] at hst
    split at hst
    · cases hst
    · simp only [Option.some.injEq] at hst
      subst hst
      have hsub : ∀ g, g ∈ s.flights.filter (fun f => f.id != id) → g ∈ s.flights :=
        fun g hg => (List.mem_filter.1 hg).1
      unfold evaluated
      split
      · exact ⟨rfl, rfl, hsub⟩
      · split
        · exact ⟨hs, rfl, hsub⟩
        · exact ⟨hs, rfl, hsub⟩
  | abort =>
    simp only [step] at hst
    split at hst
    · cases hst
    · simp only [Option.some.injEq] at hst
      subst hst; exact ⟨rfl, rfl, fun _ h => h⟩

/-- C18: an aborted setup ends as soon as its outstanding evaluations have: with none outstanding, at
most two resumptions finish it. -/
theorem C18_abort_finishes (cfg : Cfg) (hp : 0 < cfg.maxParallel) (s : St) (hs : s.running = false)
    (hf : s.flights = []) (hd : ∀ b, s.phase ≠ .finished b) :
    ∃ n ≤ 2, ∃ s', run cfg s (List.replicate n .resume) = some s' ∧ s'.phase = .finished false := by
  by_cases hdr : s.phase = .drain
  · refine ⟨1, by omega, { s with phase := .finished false }, ?_, rfl⟩
    simp [run, step, ready, hdr, hf, done, hs]
  · refine ⟨2, by omega, { s with phase := .finished false }, ?_, rfl⟩
    have hr : ready cfg s = true := by
      rcases C17_never_stuck cfg hp s hd with h | h
      · exact h
      · exact absurd hf h
    have h1 : step cfg s .resume = some { s with phase := .drain } := by
      simp [step, hr, hdr, round, hs]
    have h2 : step cfg { s with phase := .drain } .resume = some { s with phase := .finished false } := by
      simp [step, ready, hf, done, hs]
    simp only [List.replicate, run, h1, h2]

/-! ## C19 -/

/-- The row of the designs that the `j`-th candidate should come from, in the code as it is. -/
def rowOf (cfg : Cfg) (j : ℕ) : Src := ⟨j / (cfg.Np - 1), j % (cfg.Np - 1)⟩

theorem nextIV_row (cfg : Cfg) (hN : 2 ≤ cfg.Np) (s : Src) (hk : s.k ≤ cfg.Np - 1) :
    (nextIV cfg s).1.k < cfg.Np - 1 ∧ (nextIV cfg s).2.k ≤ cfg.Np - 1 := by
  unfold nextIV
  simp only
  split
  · exact ⟨by show 0 < _; omega, by show 0 + 1 ≤ _; omega⟩
  · exact ⟨by omega, by show s.k + 1 ≤ _; omega⟩

theorem getIndividual_row (cfg : Cfg) (hN : 2 ≤ cfg.Np) (t : ℕ) (ht : 0 < t) (s : Src)
    (hk : s.k ≤ cfg.Np - 1) :
    (∃ n r, r < cfg.Np - 1 ∧ (getIndividual cfg t s).1 = limit cfg.bounds (rowValues cfg ⟨n, r⟩)) ∧
      (getIndividual cfg t s).2.2.k ≤ cfg.Np - 1 := by
  induction t generalizing s with
  | zero => omega
  | succ t ih =>
    obtain ⟨h1, h2⟩ := nextIV_row cfg hN s hk
    simp only [getIndividual]
    split
    · exact ⟨⟨_, _, h1, rfl⟩, h2⟩
    · split
      · exact ⟨⟨_, _, h1, rfl⟩, h2⟩
      · exact ih (by omega) _ h2

/-- The individual comes from a row other than the last. -/
def FromEarlyRow (cfg : Cfg) (vs : List ℚ) : Prop :=
  ∃ n r, r < cfg.Np - 1 ∧ vs = limit cfg.bounds (rowValues cfg ⟨n, r⟩)

/-- C19 is false for the code: whatever happens, no member ever comes from the last row of a design. -/
theorem C19_last_row_never_used (cfg : Cfg) (hN : 2 ≤ cfg.Np) (ht : 0 < cfg.maxTries)
    (es : List Event) (s : St) (hr : run cfg start es = some s) :
    ∀ i ∈ s.members, FromEarlyRow cfg i.values := by
  have key : ∀ (es : List Event) (s s' : St),
      (s.src.k ≤ cfg.Np - 1 ∧ (∀ f ∈ s.flights, FromEarlyRow cfg f.ind.values) ∧
        ∀ i ∈ s.members, FromEarlyRow cfg i.values) → run cfg s es = some s' →
      ∀ i ∈ s'.members, FromEarlyRow cfg i.values := by
    intro es
    induction es with
    | nil =>
      intro s s' h hr
      simp only [run, Option.some.injEq] at hr; subst hr; exact h.2.2
    | cons e es ih =>
      intro s s' ⟨h1, h2, h3⟩ hr
      simp only [run] at hr
      cases hst : step cfg s e with
      | none => rw [hst] at hr; simp at hr
      | some s₁ =>
        rw [hst] at hr
        refine ih s₁ s' ?_ hr
        cases e with
        | resume =>
          simp only [step] at hst
          split at hst
          · cases hst
          · split at hst
            · simp only [Option.some.injEq] at hst
              subst hst
              unfold done
              split <;> exact ⟨h1, h2, h3⟩
            · simp only [Option.some.injEq] at hst
              subst hst
              unfold round
              split
              · obtain ⟨g1, g2⟩ := getIndividual_row cfg hN cfg.maxTries ht s.src h1
                simp only
                split
                · refine ⟨g2, h2, ?_⟩
                  intro i hi
                  simp only [List.mem_append, List.mem_singleton] at hi
                  rcases hi with hi | rfl
                  · exact h3 i hi
                  · exact g1
                · refine ⟨g2, ?_, h3⟩
                  intro f hf
                  simp only [List.mem_append, List.mem_singleton] at hf
                  rcases hf with hf | rfl
                  · exact h2 f hf
                  · exact g1
              · exact ⟨h1, h2, h3⟩
        | finish id r =>
          simp only [step] at hst
          cases hf : s.flights.find? (fun f => f.id == id) with
          | none => rw [hf] at hst; simp at hst
          | some f =>
            rw [hf] at hst
            simp only [Option.some.injEq] at hst
            subst hst
            have hmem := List.mem_of_find?_eq_some hf
            have hsub : ∀ g, g ∈ s.flights.filter (fun f => f.id != id) → g ∈ s.flights :=
              fun g hg => (List.mem_filter.1 hg).1
            have hvals : (f.ind.finishEval 0 r).1.values = f.ind.values := by cases r <;> rfl
            unfold evaluated
            split
            · exact ⟨h1, fun g hg => h2 g (hsub g hg), h3⟩
            · split
              · refine ⟨h1, fun g hg => h2 g (hsub g hg), ?_⟩
                intro i hi
                simp only [List.mem_append, List.mem_singleton] at hi
                rcases hi with hi | rfl
                · exact h3 i hi
                · rw [hvals]; exact h2 f hmem
              · exact ⟨h1, fun g hg => h2 g (hsub g hg), h3⟩
        | abort =>
          simp only [step] at hst
          split at hst
          · cases hst
          · simp only [Option.some.injEq] at hst
            subst hst; exact ⟨h1, h2, h3⟩
  exact key es start s ⟨by simp [start], by simp [start], by simp [start]⟩ hr

/-- Position after `j` candidates when every candidate conforms. -/
def posOf (cfg : Cfg) (j : ℕ) (s : Src) : Prop :=
  (j = 0 ∧ s = ⟨0, 0⟩) ∨ (0 < j ∧ s = ⟨(rowOf cfg (j - 1)).n, (rowOf cfg (j - 1)).k + 1⟩)

theorem nextIV_pos (cfg : Cfg) (hN : 2 ≤ cfg.Np) (j : ℕ) (s : Src) (h : posOf cfg j s) :
    (nextIV cfg s).1 = rowOf cfg j ∧ posOf cfg (j + 1) (nextIV cfg s).2 := by
  have h1 : (nextIV cfg s).1 = rowOf cfg j := by
    rcases h with ⟨rfl, rfl⟩ | ⟨hj, rfl⟩
    · simp only [nextIV]
      rw [if_neg (by omega)]
      simp [rowOf]
    · obtain ⟨i, rfl⟩ : ∃ i, j = i + 1 := ⟨j - 1, by omega⟩
      simp only [nextIV, rowOf, Nat.add_sub_cancel]
      have hm : 0 < cfg.Np - 1 := by omega
      have hlt := Nat.mod_lt i hm
      by_cases hc : i % (cfg.Np - 1) + 1 + 1 = cfg.Np
      · rw [if_pos hc]
        have h2 : i % (cfg.Np - 1) + 1 = cfg.Np - 1 := by omega
        have h3 : i + 1 = (cfg.Np - 1) * (i / (cfg.Np - 1) + 1) := by
          have := Nat.div_add_mod i (cfg.Np - 1)
          rw [Nat.mul_add]; omega
        rw [h3, Nat.mul_div_cancel_left _ hm, Nat.mul_mod_right]
      · rw [if_neg hc]
        have h2 : i % (cfg.Np - 1) + 1 < cfg.Np - 1 := by omega
        have h3 : i + 1 = (i % (cfg.Np - 1) + 1) + (cfg.Np - 1) * (i / (cfg.Np - 1)) := by
          have := Nat.div_add_mod i (cfg.Np - 1)
          omega
        have h4 : (i + 1) / (cfg.Np - 1) = i / (cfg.Np - 1) := by
          conv_lhs => rw [h3]
          rw [Nat.add_mul_div_left _ _ hm, Nat.div_eq_of_lt h2, Nat.zero_add]
        have h5 : (i + 1) % (cfg.Np - 1) = i % (cfg.Np - 1) + 1 := by
          conv_lhs => rw [h3]
          rw [Nat.add_mul_mod_self_left, Nat.mod_eq_of_lt h2]
        rw [h4, h5]
  refine ⟨h1, .inr ⟨by omega, ?_⟩⟩
  have h2 : (nextIV cfg s).2 = ⟨(nextIV cfg s).1.n, (nextIV cfg s).1.k + 1⟩ := rfl
  rw [h2, h1]; simp

/-- C19, what holds: if every candidate conforms, the `j`-th evaluation started is that of row
`j mod (Np-1)` of design `j / (Np-1)`, so the first `Np - 1` candidates are the first `Np - 1` rows of the
first design, in order. -/
theorem C19_rows_in_order_partial (cfg : Cfg) (hN : 2 ≤ cfg.Np) (ht : 0 < cfg.maxTries)
    (hb : cfg.blank = false)
    (hpass : ∀ n r, passesConstraints cfg.names cfg.constraints (rowValues cfg ⟨n, r⟩) = true)
    (es : List Event) (s : St) (hr : run cfg start es = some s) :
    ∀ f ∈ s.flights, f.ind.values = limit cfg.bounds (rowValues cfg (rowOf cfg f.id)) := by
  have hget : ∀ s, getIndividual cfg cfg.maxTries s =
      (limit cfg.bounds (rowValues cfg (nextIV cfg s).1), true, (nextIV cfg s).2) := by
    intro s
    obtain ⟨t, ht'⟩ : ∃ t, cfg.maxTries = t + 1 := ⟨cfg.maxTries - 1, by omega⟩
    rw [ht']
    simp only [getIndividual]
    rw [if_pos (hpass _ _)]
  have key : ∀ (es : List Event) (s s' : St),
      (posOf cfg s.k s.src ∧
        ∀ f ∈ s.flights, f.ind.values = limit cfg.bounds (rowValues cfg (rowOf cfg f.id))) →
      run cfg s es = some s' →
      ∀ f ∈ s'.flights, f.ind.values = limit cfg.bounds (rowValues cfg (rowOf cfg f.id)) := by
    intro es
    induction es with
    | nil =>
      intro s s' h hr
      simp only [run, Option.some.injEq] at hr; subst hr; exact h.2
    | cons e es ih =>
      intro s s' ⟨h1, h2⟩ hr
      simp only [run] at hr
      cases hst : step cfg s e with
      | none => rw [hst] at hr; simp at hr
      | some s₁ =>
        rw [hst] at hr
        refine ih s₁ s' ?_ hr
        cases e with
        | resume =>
          simp only [step] at hst
          split at hst
          · cases hst
          · split at hst
            · simp only [Option.some.injEq] at hst
              subst hst
              unfold done
              split <;> exact ⟨h1, h2⟩
            · simp only [Option.some.injEq] at hst
              subst hst
              unfold round
              split
              · obtain ⟨g1, g2⟩ := nextIV_pos cfg hN s.k s.src h1
                rw [hget]
                simp only [hb, Bool.false_eq_true, if_false]
                refine ⟨g2, ?_⟩
                intro f hf
                simp only [List.mem_append, List.mem_singleton] at hf
                rcases hf with hf | rfl
                · exact h2 f hf
                · simp only [Individual.spawn, g1]
              · exact ⟨h1, h2⟩
        | finish id r =>
          simp only [step] at hst
          split at hst
          · cases hst
          · simp only [Option.some.injEq] at hst
            subst hst
            have hsub : ∀ g, g ∈ s.flights.filter (fun f => f.id != id) → g ∈ s.flights :=
              fun g hg => (List.mem_filter.1 hg).1
            unfold evaluated
            split
            · exact ⟨h1, fun g hg => h2 g (hsub g hg)⟩
            · split
              · exact ⟨h1, fun g hg => h2 g (hsub g hg)⟩
              · exact ⟨h1, fun g hg => h2 g (hsub g hg)⟩
        | abort =>
          simp only [step] at hst
          split at hst
          · cases hst
          · simp only [Option.some.injEq] at hst
            subst hst; exact ⟨h1, h2⟩
  exact key es start s ⟨.inl ⟨rfl, rfl⟩, by simp [start]⟩ hr

/-! ## Examples -/

/-- A small setup of three members of one parameter in [0, 10]; row `r` of every design is in the
middle of stratum `r`. Values above 9 are excluded. -/
def demo : Cfg :=
  ⟨3, 5, 2, false, [⟨0, 10⟩], ["x"], [fun d => decide ((d "x").getD 0 ≤ 9)],
    fun _ r => [if r = 0 then 1 / 6 else if r = 1 then 1 / 2 else 5 / 6]⟩

/-- The example is proper. -/
theorem demo_proper : Proper demo := by
  constructor
  · intro b hb
    simp only [demo, List.mem_singleton] at hb
    subst hb; norm_num
  · intro n r
    refine ⟨rfl, ?_⟩
    intro u hu
    simp only [demo, List.mem_singleton] at hu
    subst hu
    split
    · norm_num
    · split <;> norm_num

/-- Non-vacuity: a setup in which evaluations finish out of order, one with an infinite score. -/
example : (run demo start
    [.resume, .resume, .finish 1 (.done (some (.fin 4))), .resume, .finish 0 (.done (some .pinf)),
      .finish 2 (.done (some (.fin 2))), .resume, .finish 3 (.done (some (.fin 3))), .resume,
      .resume]).map (fun s => (s.phase, s.members.map Individual.values, s.k)) =
    some (.finished true, [[5], [10 / 6], [5]], 4) := by
  decide +kernel

/-- Non-vacuity: the same with a fatal error; the setup ends with an abort indication. -/
example : (run demo start
    [.resume, .resume, .finish 1 (.done (some (.fin 4))), .resume, .finish 0 .failed,
      .finish 2 (.done (some (.fin 2))), .resume, .resume]).map (fun s => (s.phase, s.k)) =
    some (.finished false, 3) := by
  decide +kernel

/-- C19 is false for the code, concretely: with three members, every candidate conforming and every
score finite, the completed population has two members in the first third of the range and none in the
last third. -/
theorem C19_witness : (run demo start
    [.resume, .finish 0 (.done (some (.fin 1))), .resume, .finish 1 (.done (some (.fin 4))), .resume,
      .finish 2 (.done (some (.fin 2))), .resume, .resume]).map
        (fun s => (s.phase, s.members.map Individual.values)) =
    some (.finished true, [[10 / 6], [5], [10 / 6]]) := by
  decide +kernel

/-- Every row of the example conforms. -/
theorem demo_passes (n r : ℕ) : passesConstraints demo.names demo.constraints (rowValues demo ⟨n, r⟩) = true := by
  unfold rowValues demo
  simp only
  split
  · decide +kernel
  · split <;> decide +kernel

/-- A setup with an unusable score... -/
def demoOk : List Event :=
  [.resume, .resume, .finish 1 (.done (some (.fin 4))), .resume, .finish 0 (.done (some .pinf)),
    .finish 2 (.done (some (.fin 2))), .resume, .finish 3 (.done (some (.fin 3))), .resume, .resume]

/-- ... its result... -/
def demoEnd : St := (run demo start demoOk).get (by decide +kernel)

theorem demoEnd_run : run demo start demoOk = some demoEnd := eq_get _

/-- ... and one with a failed evaluation. -/
def demoBad : List Event :=
  [.resume, .resume, .finish 1 (.done (some (.fin 4))), .resume, .finish 0 .failed]

/-- The state after the failure. -/
def demoFailed : St := (run demo start demoBad).get (by decide +kernel)

theorem demoFailed_run : run demo start demoBad = some demoFailed := eq_get _

example := C17_setup_complete demo demo_proper rfl demoOk demoEnd demoEnd_run (by decide +kernel)

example := C17_again demo demo_proper rfl (some true) (by decide) [⟨some (.fin 9), [1]⟩] demoOk demoEnd demoEnd_run
  (by decide +kernel)

example := C18_shut_down demo [⟨some (.fin 9), [1]⟩] [] _ rfl

example := C17_never_too_many demo demo_proper demoOk demoEnd demoEnd_run

example := C17_blank_setup demo demo_proper demoOk demoEnd demoEnd_run (by decide +kernel)

example := C17_never_stuck demo (by decide) demoFailed (fun b => by revert b; decide +kernel)

example := C18_fatal_aborts demo demo_proper demoBad demoFailed demoFailed_run
  (.inl ⟨0, .failed, by simp [demoBad], trivial⟩)

example := C18_failed_never_member demo demo_proper rfl demoOk demoEnd demoEnd_run

example := C18_no_new_evaluation demo demoFailed
  ((step demo demoFailed (.finish 2 (.done (some (.fin 1))))).get (by decide +kernel)) (.finish 2 (.done (some (.fin 1))))
  (by decide +kernel) (eq_get _)

example := C18_abort_finishes demo (by decide) { start with running := false } rfl rfl (fun b => by revert b; decide)

example := C19_last_row_never_used demo (by decide) (by decide) demoOk demoEnd demoEnd_run

end Setup
end Ade
