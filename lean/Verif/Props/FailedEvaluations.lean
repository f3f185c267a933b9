import Verif.Props.Generation
import Verif.Props.GivingUp

/-!
# Property C138: evaluations that yield no score, and the success of a generation

`Reporter.msgRatio` (ade/report.py:256-350) is documented to consider the target "automatically better"
if the score of the challenger is bogus, and to return `None` then, as for any lost challenge.
-/

set_option autoImplicit false

namespace Ade
namespace Generation
open Reporter Replacement

/-! ## Specification -/

/-- The evaluation yielded no usable score: none at all, an infinite one or one that is not a number. -/
def NoScore (i : Individual) : Prop := i.stored = none ∨ i.stored = some .nan ∨ i.stored = some .pinf

/-- The evaluation did not end with a fatal error, which is what a negative score stands for. -/
def NotFatal (i : Individual) : Prop := ∀ x, i.stored = some x → ¬ x.lt .zero = true

/-- Challenges: challenger and target. -/
def reports (l : List (ℕ × ℕ)) : List Event := l.map fun p => .reporter (.report p.1 (some p.2) false false)

/-! ## Lemmas -/

theorem noScore_ratio {old new : Individual} (hn : NoScore new) (ho : old.toBool = true) (c : Char) :
    (∀ a, Scored old a → msgRatio old new c = (some 0, '#')) ∧
    (NoScore old → msgRatio old new c = (some 0, '%')) := by
  have hb : ∀ i : Individual, NoScore i → i.toBool = true ∧ bogus i = true := by
    intro i hi
    rcases hi with h | h | h <;> simp [Individual.toBool, bogus, Individual.SSE, h] <;> decide
  have h1 := hb new hn
  constructor
  · intro a ha
    have h2 : bogus old = false := by simp [bogus, ha.SSE, PyFloat.isNaN, PyFloat.isInf]
    simp [msgRatio, ho, h1.1, h1.2, h2]
  · intro h
    have h2 := hb old h
    simp [msgRatio, ho, h1.1, h1.2, h2]

theorem whileLoop_running (n : ℕ) (s : Reporter.St) : (whileLoop n s).running = s.running := by
  unfold whileLoop
  split
  · rfl
  · simp only; split_ifs <;> rfl

theorem newBest_running (n : ℕ) (s : Reporter.St) (i : ℕ) (f : Bool) :
    (newBest n s i f).running = s.running := by
  have h : (best1 s i).running = s.running := by unfold best1; split_ifs <;> rfl
  obtain ⟨g, hg⟩ := newBest_cases n s i f
  rw [hg]
  split
  · unfold runCallbacks
    simp only
    split
    · rw [whileLoop_running]; exact h
    · exact h
  · exact h

theorem report_keeps (n : ℕ) (s : Reporter.St) (i o : ℕ) (np f : Bool) :
    (Reporter.report n s i (some o) np f).1.store = s.store ∧
    (Reporter.report n s i (some o) np f).1.running = s.running := by
  have h1 : (Reporter.call n s i (some o) np f).1.store = s.store := call_store n s i (some o) np f
  have h2 : (Reporter.call n s i (some o) np f).1.running = s.running := by
    unfold Reporter.call
    simp only
    split_ifs <;> simp [put_keeps, newBest_running]
  unfold Reporter.report
  split
  · exact ⟨rfl, rfl⟩
  · simp only
    split
    · exact ⟨h1, h2⟩
    · exact ⟨h1, h2⟩

theorem notFatal_cases {i : Individual} (h : NotFatal i) : NoScore i ∨ ∃ a, Scored i a := by
  obtain ⟨st, v⟩ := i
  unfold NotFatal at h
  unfold NoScore Scored
  rcases st with _ | x
  · exact .inl (.inl rfl)
  · cases x with
    | nan => exact .inl (.inr (.inl rfl))
    | pinf => exact .inl (.inr (.inr rfl))
    | ninf => exact absurd rfl (h _ rfl)
    | fin a =>
      refine .inr ⟨a, rfl, ?_⟩
      have := h _ rfl
      simpa [PyFloat.lt, PyFloat.zero] using this

theorem notFatal_toBool {i : Individual} (h : NotFatal i) : i.toBool = true := by
  rcases notFatal_cases h with h | ⟨a, h⟩
  · rcases h with h | h | h <;> simp [Individual.toBool, h] <;> decide
  · exact h.toBool

theorem failed_ratio {old new : Individual} (hn : NoScore new) (ho : NotFatal old) :
    (msgRatio old new '!').1 = some 0 := by
  have h := noScore_ratio hn (notFatal_toBool ho) '!'
  rcases notFatal_cases ho with h' | ⟨a, h'⟩
  · rw [h.2 h']
  · rw [h.1 a h']

/-! ## C138 -/

/-- C138, contrary to the documentation: the report of a challenger without a score is worth as much as
that of an equivalent one, a tenth, and as a new best individual if there was none. -/
theorem C138_counts_as_equivalent (n : ℕ) (p p' : Pop) (i o : ℕ) (np f : Bool) (x : ℝ)
    (hr : p.rep.running = true) (hi : NoScore (p.rep.store i)) (ho : NotFatal (p.rep.store o))
    (hx : p.sq.score = some x) (h : step n p (.reporter (.report i (some o) np f)) = some p') :
    p'.sq.score = some (x + 1 / 10 + if p.rep.iBest = none then 1 / 2 else 0) := by
  simp only [step, Reporter.step, Option.some.injEq] at h
  subst h
  rw [news_of (report_repl n p.rep hr i o np f), run_ratios _ x hx, failed_ratio hi ho]
  have hb : better p.rep i = true ↔ p.rep.iBest = none := by
    unfold better
    cases hib : p.rep.iBest with
    | none => simp
    | some b =>
      simp only [reduceCtorEq, iff_false, Bool.not_eq_true]
      have ht : (p.rep.store i).toFloat = .pinf ∨ (p.rep.store i).toFloat = .nan := by
        rcases hi with h | h | h <;> simp [Individual.toFloat, Individual.SSE, h] ; decide
      unfold Individual.lt
      rcases ht with ht | ht <;> rw [ht] <;> cases (p.rep.store b).toFloat <;> rfl
  simp only [hb]
  congr 1
  split_ifs
  · norm_num [weight]; ring
  · norm_num [weight]

theorem reports_score (n : ℕ) (l : List (ℕ × ℕ)) : ∀ (p p' : Pop) (x : ℝ), p.rep.running = true →
    (∀ q ∈ l, NoScore (p.rep.store q.1) ∧ NotFatal (p.rep.store q.2)) → p.sq.score = some x →
    run n p (reports l) = some p' →
    ∃ y, x + l.length / 10 ≤ y ∧ p'.sq.score = some y ∧ p'.sq.sqs = p.sq.sqs := by
  induction l with
  | nil =>
    intro p p' x _ _ hx h
    simp only [reports, List.map_nil, run, Option.some.injEq] at h
    subst h
    exact ⟨x, by simp, hx, rfl⟩
  | cons q l ih =>
    intro p p' x hr hl hx h
    simp only [reports, List.map_cons, run] at h
    cases hs : step n p (.reporter (.report q.1 (some q.2) false false)) with
    | none => rw [hs] at h; cases h
    | some r =>
      rw [hs] at h
      obtain ⟨h1, h2⟩ := hl q (by simp)
      have h3 := C138_counts_as_equivalent n p r q.1 q.2 false false x hr h1 h2 hx hs
      obtain ⟨y, -, h4, h5⟩ := step_score_mono n p r _ x hx hs
      have hk : r.rep.store = p.rep.store ∧ r.rep.running = p.rep.running := by
        simp only [step, Reporter.step, Option.some.injEq] at hs
        subst hs
        exact report_keeps n p.rep q.1 q.2 false false
      obtain ⟨z, h6, h7, h8⟩ := ih r p' _ (hk.2.trans hr)
        (fun t ht => by rw [hk.1]; exact hl t (by simp [ht])) h3 h
      refine ⟨z, le_trans ?_ h6, h7, h8.trans h5⟩
      have : (0 : ℝ) ≤ if p.rep.iBest = none then 1 / 2 else 0 := by split_ifs <;> norm_num
      simp only [List.length_cons]
      push_cast
      linarith

/-- C138, contrary to the documentation: a generation in which no evaluation yields a score is a complete
success: with one challenge for each of `Np` members and a target fraction of at most a tenth, the status
quo is kept whatever the draw. -/
theorem C138_failed_generation_kept (n Np : ℕ) (fr : ℝ) (p p' : Pop) (l : List (ℕ × ℕ)) (u₀ u : ℝ)
    (hu : u < 1) (hr : p.rep.running = true) (hN : 0 < Np) (hl : l.length = Np) (h0 : 0 < fr)
    (h1 : fr ≤ 1 / 10) (hq : p.sq.sqs = fr * Np)
    (hfail : ∀ q ∈ l, NoScore (p.rep.store q.1) ∧ NotFatal (p.rep.store q.2))
    (h : run n p (.inquiry u₀ :: reports l) = some p') : answer p' u = some true := by
  simp only [run, step] at h
  have hsq : (replacement p.sq ⟨none, none, u₀⟩).1.sqs = p.sq.sqs := by
    rw [show (⟨none, none, u₀⟩ : Replacement.Call) = inquiry u₀ from rfl, inquiry_resets]
  obtain ⟨y, hy, hy1, hy2⟩ := reports_score n l ⟨p.rep, (replacement p.sq ⟨none, none, u₀⟩).1⟩ p' 0 hr hfail
    (C20_inquiry_resets p.sq u₀) h
  have hN' : (0 : ℝ) < Np := by exact_mod_cast hN
  simp only [answer, Replacement.replacement, Replacement.Call.setsTarget, hy1]
  rw [hy2]
  simp only [hsq, hq]
  rw [C20_target_reached y (fr * Np) u (mul_pos h0 hN') ?_ hu]
  rw [hl] at hy
  nlinarith

/-- C138, what holds: a challenge lost by score is worth nothing. -/
theorem C138_lost_partial (n : ℕ) (p p' : Pop) (i o b₀ : ℕ) (np f : Bool) (a b : ℚ) (x : ℝ)
    (hr : p.rep.running = true) (ho : Scored (p.rep.store o) a) (hi : Scored (p.rep.store i) b)
    (hab : a < b) (hb : p.rep.iBest = some b₀) (c : ℚ) (hb₀ : Scored (p.rep.store b₀) c) (hca : c ≤ a)
    (hx : p.sq.score = some x)
    (h : step n p (.reporter (.report i (some o) np f)) = some p') :
    p'.sq.score = some x := by
  have hpos : 0 < b := lt_of_le_of_lt ho.2 hab
  obtain ⟨w, hw, -, hs⟩ := C68_report_adds n p p' i o np f a b x hr ho hi hpos hx h
  have hnb : ¬ NewBest p.rep i := by
    intro hnb
    have := hnb b₀ hb
    rw [hi.lt hb₀, decide_eq_true_eq] at this
    linarith
  rw [if_neg hnb] at hs
  cases hw with
  | lost => simpa using hs
  | equivalent h => exact absurd hab (not_lt.2 h)
  | better r h => exact absurd hab (by have := ho.2; intro h'; linarith)

/-- Reports leave the target, the running state and a missing score alone. -/
theorem reports_keep (n : ℕ) (l : List (ℕ × ℕ)) : ∀ (p p' : Pop), run n p (reports l) = some p' →
    p'.sq.sqs = p.sq.sqs ∧ p'.rep.running = p.rep.running ∧ (p.sq.score = none → p'.sq.score = none) := by
  have key : ∀ (l : List ℕ) (s : Replacement.St),
      (Replacement.run s (l.map fun q => ⟨some q, none, 0⟩)).sqs = s.sqs ∧
      (s.score = none → (Replacement.run s (l.map fun q => ⟨some q, none, 0⟩)).score = none) := by
    intro l
    induction l with
    | nil => intro s; exact ⟨rfl, id⟩
    | cons a l ih =>
      intro s
      simp only [List.map_cons, Replacement.run, List.foldl_cons]
      obtain ⟨h1, h2⟩ := ih (replacement s ⟨some a, none, 0⟩).1
      refine ⟨h1.trans ?_, fun h => h2 ?_⟩
      · simp only [replacement, Replacement.Call.setsTarget]
        split <;> rfl
      · simp [replacement, Replacement.Call.setsTarget, h]
  induction l with
  | nil =>
    intro p p' h
    simp only [reports, List.map_nil, run, Option.some.injEq] at h
    subst h
    exact ⟨rfl, rfl, id⟩
  | cons q l ih =>
    intro p p' h
    simp only [reports, List.map_cons, run, step, Reporter.step] at h
    obtain ⟨h1, h2, h3⟩ := ih _ p' h
    have hk := report_keeps n p.rep q.1 q.2 false false
    exact ⟨h1.trans (key _ _).1, h2.trans hk.2, fun h => h3 ((key _ _).2 h)⟩

/-- A run in which every generation keeps the status quo is not stopped. -/
theorem loop_kept {K : Type} [Field K] [LinearOrder K] (cfg : RunLoop.Cfg)
    (c : FManager.Consts K) (env : ℕ → RunLoop.Env) (F : FManager.FVal K) (adaptive : Bool)
    (hg : RunLoop.goalSet cfg = false)
    (hu : ∀ i < cfg.maxiter, RunLoop.Undisturbed cfg (env i)) (hk : ∀ k, (env k).keep = true) :
    (RunLoop.run cfg c env F adaptive).2 = .maximum := by
  rw [RunLoop.run_outcome]
  have key : ∀ (m kg : ℕ) (G : FManager.FM K) (d : ℕ), kg + m = cfg.maxiter →
      (RunLoop.loop cfg c env m kg G d).2 = .maximum := by
    intro m
    induction m with
    | zero => intros; rfl
    | succ m ih =>
      intro kg G d h
      have he := (RunLoop.evolve_iff cfg (env kg) kg).2 (hu kg (by omega))
      simp only [RunLoop.loop, he, hg, hk kg, Bool.not_true, Bool.false_eq_true, if_false, if_true]
      exact ih _ _ _ (by omega)
  exact key _ _ _ _ (by omega)

/-- C138: so a run is not stopped although all its evaluations come to nothing from some point on: if the
population behaves as above in every generation, the loop makes all its generations, whatever its
settings of the mutation range. -/
theorem C138_failing_run_goes_on {K : Type} [Field K] [LinearOrder K] (cfg : RunLoop.Cfg)
    (c : FManager.Consts K) (env : ℕ → RunLoop.Env) (F : FManager.FVal K) (adaptive : Bool)
    (n : ℕ) (fr : ℝ) (hN : 0 < cfg.Np) (h0 : 0 < fr) (h1 : fr ≤ 1 / 10) (hg : RunLoop.goalSet cfg = false)
    (hu : ∀ i < cfg.maxiter, RunLoop.Undisturbed cfg (env i))
    (pop atEnd : ℕ → Pop) (l : ℕ → List (ℕ × ℕ)) (u : ℕ → ℝ) (hu1 : ∀ k, u k < 1)
    (hstart : (pop 0).sq = Replacement.new (fr * cfg.Np)) (hrun : (pop 0).rep.running = true)
    (hl : ∀ k, (l k).length = cfg.Np)
    (hfail : ∀ k, ∀ q ∈ l k, NoScore ((pop k).rep.store q.1) ∧ NotFatal ((pop k).rep.store q.2))
    (hgen : ∀ k, run n (pop k) (reports (l k)) = some (atEnd k))
    (hnext : ∀ k, run n (atEnd k) [.inquiry (u k)] = some (pop (k + 1)))
    (hkeep : ∀ k, (env k).keep = (answer (atEnd k) (u k)).getD false) :
    (RunLoop.run cfg c env F adaptive).2 = .maximum := by
  have hinv : ∀ k, (pop k).rep.running = true ∧ (pop k).sq.sqs = fr * cfg.Np := by
    intro k
    induction k with
    | zero => exact ⟨hrun, by rw [hstart]; rfl⟩
    | succ k ih =>
      obtain ⟨h2, h3, -⟩ := reports_keep n (l k) _ _ (hgen k)
      have h4 := hnext k
      simp only [run, step, Option.some.injEq] at h4
      rw [← h4]
      refine ⟨h3.trans ih.1, ?_⟩
      have := inquiry_resets (atEnd k).sq (u k)
      rw [show (⟨none, none, u k⟩ : Replacement.Call) = inquiry (u k) from rfl, this]
      exact h2.trans ih.2
  refine loop_kept cfg c env F adaptive hg hu fun k => ?_
  rw [hkeep]
  cases k with
  | zero =>
    have h2 := (reports_keep n (l 0) _ _ (hgen 0)).2.2 (by rw [hstart]; rfl)
    simp [answer, Replacement.replacement, Replacement.Call.setsTarget, h2]
  | succ k =>
    obtain ⟨h2, h3, -⟩ := reports_keep n (l k) _ _ (hgen k)
    have h4 := hnext k
    simp only [run, step, Option.some.injEq] at h4
    have h5 : (pop (k + 1)).rep = (atEnd k).rep := by rw [← h4]
    have h6 : run n (atEnd k) (.inquiry (u k) :: reports (l (k + 1))) = some (atEnd (k + 1)) := by
      simp only [run, step]
      rw [h4]
      exact hgen (k + 1)
    rw [C138_failed_generation_kept n cfg.Np fr (atEnd k) (atEnd (k + 1)) (l (k + 1)) (u k) (u (k + 1))
      (hu1 _) (h3.trans (hinv k).1) hN (hl _) h0 h1 (h2.trans (hinv k).2)
      (by rw [← h5]; exact hfail (k + 1)) h6]
    rfl

/-! ## Examples -/

namespace Demo

/-- Members 0 to 3 have scores; whatever else is evaluated has none. -/
def store (k : ℕ) : Individual := if k < 4 then ⟨some (.fin (k + 1)), [k]⟩ else ⟨none, [k]⟩

/-- Four challenges, one for each member. -/
def batch : List (ℕ × ℕ) := [(4, 0), (5, 1), (6, 2), (7, 3)]

theorem batch_fails : ∀ q ∈ batch, NoScore (store q.1) ∧ NotFatal (store q.2) := by
  intro q hq
  simp only [batch, List.mem_cons, List.not_mem_nil, or_false] at hq
  rcases hq with rfl | rfl | rfl | rfl <;>
    refine ⟨.inl rfl, fun x hx => ?_⟩ <;> simp [store] at hx <;> subst hx <;> decide +kernel

/-- The population before generation `k`, and at its end. -/
noncomputable def both : ℕ → Pop × Pop
  | 0 =>
    let p : Pop := ⟨{ Reporter.new store with iBest := some 0 }, Replacement.new (2 / 100 * (4 : ℕ))⟩
    (p, (run 0 p (reports batch)).getD p)
  | k + 1 =>
    let p := (run 0 (both k).2 [.inquiry (1 / 2)]).getD (both k).2
    (p, (run 0 p (reports batch)).getD p)

theorem run_some (p : Pop) (l : List (ℕ × ℕ)) : ∃ p', run 0 p (reports l) = some p' ∧
    p'.rep.store = p.rep.store := by
  induction l generalizing p with
  | nil => exact ⟨p, rfl, rfl⟩
  | cons q l ih =>
    simp only [reports, List.map_cons, run, step, Reporter.step]
    obtain ⟨p', h1, h2⟩ := ih ⟨(Reporter.report 0 p.rep q.1 (some q.2) false false).1, Replacement.run p.sq
      ((news p.rep (Reporter.report 0 p.rep q.1 (some q.2) false false).1).map fun q => ⟨some q, none, 0⟩)⟩
    exact ⟨p', h1, h2.trans (report_keeps 0 p.rep q.1 q.2 false false).1⟩

theorem both_gen (k : ℕ) : run 0 (both k).1 (reports batch) = some (both k).2 := by
  obtain ⟨p', h, -⟩ := run_some (both k).1 batch
  rw [h]
  cases k <;> simp only [both] at h ⊢ <;> rw [h] <;> rfl

theorem both_next (k : ℕ) : run 0 (both k).2 [.inquiry (1 / 2)] = some (both (k + 1)).1 := by
  simp only [both, run, step, Option.getD_some]

theorem both_store (k : ℕ) : (both k).1.rep.store = store := by
  induction k with
  | zero => rfl
  | succ k ih =>
    obtain ⟨p', h1, h2⟩ := run_some (both k).1 batch
    have h3 := both_gen k
    rw [h1] at h3
    injection h3 with h3
    have h4 := both_next k
    simp only [run, step, Option.some.injEq] at h4
    rw [← h4]
    simp only
    rw [← h3, h2, ih]

/-- The environment of a loop over that population. -/
noncomputable def env (k : ℕ) : RunLoop.Env :=
  { RunLoop.quiet k with keep := (answer (both k).2 (1 / 2)).getD false }

example : (RunLoop.run RunLoop.demoCfg FManager.demo env (.range (12 / 100) (4 / 10)) true).2 = .maximum :=
  C138_failing_run_goes_on RunLoop.demoCfg FManager.demo env (.range (12 / 100) (4 / 10)) true 0 (2 / 100)
    (by decide) (by norm_num) (by norm_num) rfl (fun i _ => RunLoop.quiet_undisturbed i)
    (fun k => (both k).1) (fun k => (both k).2) (fun _ => batch) (fun _ => 1 / 2) (fun _ => by norm_num)
    rfl rfl (fun _ => rfl) (fun k q hq => by rw [both_store]; exact batch_fails q hq) both_gen both_next
    (fun _ => rfl)

end Demo

/-- Non-vacuity of the theorems about one challenge: the second generation of that run. -/
example : (Demo.both 1).1.rep.running = true ∧ NoScore ((Demo.both 1).1.rep.store 4) ∧
    NotFatal ((Demo.both 1).1.rep.store 0) ∧ (Demo.both 1).1.sq.score = some 0 := by
  have h := Demo.both_next 0
  have hk := (reports_keep 0 Demo.batch _ _ (Demo.both_gen 0)).2.1
  simp only [run, step, Option.some.injEq] at h
  refine ⟨?_, ?_, ?_, ?_⟩
  · rw [← h]; exact hk
  · rw [Demo.both_store]; exact (Demo.batch_fails (4, 0) (by simp [Demo.batch])).1
  · rw [Demo.both_store]; exact (Demo.batch_fails (4, 0) (by simp [Demo.batch])).2
  · rw [← h]; exact C20_inquiry_resets _ _

/-- Individual 4, which has no score, is reported against member 0. -/
example (p' : Pop)
    (h : step 0 ⟨{ Reporter.new Demo.store with iBest := some 0 }, ⟨some 3, 2⟩⟩
      (.reporter (.report 4 (some 0) false false)) = some p') :
    p'.sq.score = some (3 + 1 / 10 + if (some 0 : Option ℕ) = none then 1 / 2 else 0) :=
  C138_counts_as_equivalent 0 _ p' 4 0 false false 3 rfl (Demo.batch_fails (4, 0) (by simp [Demo.batch])).1
    (Demo.batch_fails (4, 0) (by simp [Demo.batch])).2 rfl h

/-- The four challenges of the example, none of which yields a score. -/
example (p' : Pop)
    (h : run 0 ⟨{ Reporter.new Demo.store with iBest := some 0 }, Replacement.new (2 / 100 * (4 : ℕ))⟩
      (.inquiry (1 / 3) :: reports Demo.batch) = some p') : answer p' (9 / 10) = some true :=
  C138_failed_generation_kept 0 4 (2 / 100) _ p' Demo.batch (1 / 3) (9 / 10) (by norm_num) rfl (by norm_num) rfl
    (by norm_num) (by norm_num) rfl Demo.batch_fails h

/-- Non-vacuity of `C138_lost_partial`: member 2 challenges member 1 and loses. -/
example (p' : Pop)
    (h : step 0 ⟨{ Reporter.new Demo.store with iBest := some 0 }, ⟨some 3, 2⟩⟩
      (.reporter (.report 2 (some 1) false false)) = some p') : p'.sq.score = some 3 :=
  C138_lost_partial 0 _ p' 2 1 0 false false 2 3 3 rfl ⟨by norm_num [Reporter.new, Demo.store], by norm_num⟩
    ⟨by norm_num [Reporter.new, Demo.store], by norm_num⟩ (by norm_num) rfl 1
    ⟨by norm_num [Reporter.new, Demo.store], by norm_num⟩ (by norm_num) rfl h

end Generation
end Ade
