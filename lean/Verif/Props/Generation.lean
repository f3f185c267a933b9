import Verif.Model.Generation
import Verif.Props.Reporter
import Verif.Props.Replacement
import Verif.Props.RunLoop
import Mathlib.Analysis.SpecialFunctions.Trigonometric.Bounds

/-!
# Property C68: the score of a generation, and new best individuals
-/

set_option autoImplicit false

namespace Ade
namespace Generation
open Reporter Replacement

/-! ## Specification -/

/-- What a challenge won or lost is worth: old score `a`, new score `b`. -/
inductive Worth (a b : ℚ) : ℝ → Prop where
  | lost : a < b → Worth a b 0
  | equivalent : b ≤ a → a - b < a / 50 → Worth a b (1 / 10)
  | better (r : ℕ) : a / 50 ≤ a - b → 1 ≤ r → Nearest r (a / b) → Worth a b (r - 1 / 2)

/-- Individual `i` is better than the best reported so far (or the first). -/
def NewBest (s : Reporter.St) (i : ℕ) : Prop :=
  ∀ b, s.iBest = some b → (s.store i).lt (s.store b) = true

/-! ## The ratios passed on -/

theorem whileLoop_repl (n : ℕ) (s : Reporter.St) : (whileLoop n s).repl = s.repl := by
  unfold whileLoop
  split
  · rfl
  · simp only; split_ifs <;> rfl

theorem forLoop_repl (n : ℕ) (s : Reporter.St) (i k : ℕ) : (forLoop n s i k).repl = s.repl := by
  unfold forLoop
  split_ifs <;> first | exact whileLoop_repl n s | rfl

/-- The remembered best after a report of a new best. -/
def best1 (s : Reporter.St) (i : ℕ) : Reporter.St :=
  if better s i = true then { s with iBest := some i } else s

theorem newBest_cases (n : ℕ) (s : Reporter.St) (i : ℕ) (f : Bool) :
    ∃ g : Bool, newBest n s i f = if g then
      runCallbacks n { best1 s i with iLast := some i } i (best1 s i).iBest else best1 s i :=
  ⟨_, rfl⟩

theorem newBest_repl (n : ℕ) (s : Reporter.St) (i : ℕ) (f : Bool) :
    (newBest n s i f).repl = s.repl := by
  have h : (best1 s i).repl = s.repl := by unfold best1; split_ifs <;> rfl
  obtain ⟨g, hg⟩ := newBest_cases n s i f
  rw [hg]
  split
  · unfold runCallbacks
    simp only
    split
    · rw [whileLoop_repl]; exact h
    · exact h
  · exact h

theorem put_repl (s : Reporter.St) (np : Bool) (c : Char) : (put s np c).repl = s.repl := by
  unfold put; split_ifs <;> rfl

theorem complain_repl (s : Reporter.St) (i : ℕ) : (complain s i).repl = s.repl := by
  unfold complain
  simp only
  split
  · split_ifs <;> rfl
  · rfl

theorem put_better (s : Reporter.St) (i : ℕ) (np : Bool) (c : Char) :
    better (put s np c) i = better s i ∧ (put s np c).store = s.store := by
  unfold put; split_ifs <;> exact ⟨rfl, rfl⟩

/-- The ratios a report of a challenge passes on: the bonus for a new best individual, then the
ratio. -/
theorem report_repl (n : ℕ) (s : Reporter.St) (hr : s.running = true) (i o : ℕ) (np f : Bool) :
    (Reporter.report n s i (some o) np f).1.repl = s.repl ++
      ((if better s i = true then [1] else []) ++
        (msgRatio (s.store o) (s.store i) '!').1.toList) := by
  unfold Reporter.report Reporter.call
  simp only [hr, Bool.not_true, Bool.false_eq_true, if_false]
  have hb := (put_better s i np (msgRatio (s.store o) (s.store i) '!').2).1
  generalize hq : (msgRatio (s.store o) (s.store i) '!') = q at *
  obtain ⟨r, c⟩ := q
  simp only at *
  rw [hb]
  cases r with
  | none => split_ifs <;> simp [put_repl, newBest_repl]
  | some r => split_ifs <;> simp [put_repl, newBest_repl]

/-- Reports of single individuals pass on nothing. -/
theorem report_alone_repl (n : ℕ) (s : Reporter.St) (i : ℕ) (np f : Bool) :
    (Reporter.report n s i none np f).1.repl = s.repl := by
  unfold Reporter.report
  split
  · rfl
  · have h : (Reporter.call n s i none np f).2 = none := by
      unfold Reporter.call
      simp only
      split_ifs
      · rfl
      · split
        · rfl
        · split_ifs <;> rfl
    have h2 : (Reporter.call n s i none np f).1.repl = s.repl := by
      unfold Reporter.call
      simp only
      split_ifs
      · exact put_repl _ _ _
      · split
        · simp only [put_repl, newBest_repl]
        · split_ifs <;> simp only [put_repl, newBest_repl]
    simp only [h, h2]

/-- Every event of the reporter only adds to the ratios passed on; those that are not reports of
challenges while running add nothing. -/
theorem step_repl (n : ℕ) (s s' : Reporter.St) (e : Reporter.Event)
    (h : Reporter.step n s e = some s') : ∃ l, s'.repl = s.repl ++ l := by
  cases e with
  | report i o np f =>
    simp only [Reporter.step, Option.some.injEq] at h
    subst h
    cases hr : s.running with
    | false => exact ⟨[], by simp [Reporter.report, hr]⟩
    | true =>
      cases o with
      | none => exact ⟨[], by rw [report_alone_repl, List.append_nil]⟩
      | some o => exact ⟨_, report_repl n s hr i o np f⟩
  | returned r =>
    refine ⟨[], ?_⟩
    rw [List.append_nil]
    simp only [Reporter.step] at h
    split at h
    · split at h
      · injection h with h; subst h; rw [whileLoop_repl]
      · injection h with h; subst h; rw [forLoop_repl]
      · split_ifs at h
        · injection h with h; subst h; rfl
        · injection h with h; subst h; rw [forLoop_repl]
    · cases h
  | handled ok =>
    refine ⟨[], ?_⟩
    rw [List.append_nil]
    simp only [Reporter.step] at h
    split at h
    · split_ifs at h
      · injection h with h; subst h; rw [forLoop_repl, complain_repl]
      · injection h with h; subst h; rfl
    · cases h
  | abort =>
    simp only [Reporter.step, Option.some.injEq] at h
    subst h
    exact ⟨[], by simp⟩

theorem news_of {s s' : Reporter.St} {l : List ℕ} (h : s'.repl = s.repl ++ l) : news s s' = l := by
  simp [news, h]

/-- Passing ratios on to a score. -/
theorem run_ratios (s : Replacement.St) (x : ℝ) (hs : s.score = some x) (l : List ℕ) :
    Replacement.run s (l.map fun q => ⟨some q, none, 0⟩) =
      { s with score := some (x + (l.map weight).sum) } := by
  have := run_reports s x hs (l.map fun q => (q, 0))
  simpa [List.map_map, Function.comp_def, Replacement.report] using this

theorem weight_pos (r : ℕ) : 1 / 10 ≤ weight r := by
  unfold weight
  split_ifs with h
  · norm_num
  · have : (1 : ℝ) ≤ r := by exact_mod_cast Nat.one_le_iff_ne_zero.2 h
    linarith

theorem weights_nonneg (l : List ℕ) : 0 ≤ (l.map weight).sum := by
  induction l with
  | nil => simp
  | cons r l ih => simp only [List.map_cons, List.sum_cons]; linarith [weight_pos r]

/-! ## C68 -/

theorem newBest_iff (s : Reporter.St) (i : ℕ) : better s i = true ↔ NewBest s i := by
  unfold better NewBest
  cases s.iBest with
  | none => simp
  | some b => simp

open Classical in
/-- C68: the report of a challenge whose scores are usable adds to the score of the generation what
the challenge is worth, and a bonus of one half if the challenger is a new best individual. -/
theorem C68_report_adds (n : ℕ) (p p' : Pop) (i o : ℕ) (np f : Bool) (a b : ℚ) (x : ℝ)
    (hr : p.rep.running = true) (ho : Scored (p.rep.store o) a) (hi : Scored (p.rep.store i) b)
    (hb : 0 < b) (hx : p.sq.score = some x)
    (h : step n p (.reporter (.report i (some o) np f)) = some p') :
    ∃ w, Worth a b w ∧ p'.sq.sqs = p.sq.sqs ∧
      p'.sq.score = some (x + w + if NewBest p.rep i then 1 / 2 else 0) := by
  simp only [step, Reporter.step, Option.some.injEq] at h
  subst h
  rw [news_of (report_repl n p.rep hr i o np f), run_ratios _ x hx]
  have hw : ∃ w, Worth a b w ∧
      ((msgRatio (p.rep.store o) (p.rep.store i) '!').1.toList.map weight).sum = w := by
    rcases hm : (msgRatio (p.rep.store o) (p.rep.store i) '!').1 with _ | r
    · exact ⟨0, .lost ((C47_none_iff ho hi '!').1 hm), by simp⟩
    · have hba : b ≤ a := by
        by_contra hlt
        rw [(C47_none_iff ho hi '!').2 (not_le.1 hlt)] at hm
        cases hm
      have ha : 0 < a := lt_of_lt_of_le hb hba
      by_cases he : a - b < a / 50
      · rw [(C47_zero_iff_partial ho hi ha '!').2 ⟨hba, he⟩] at hm
        cases hm
        exact ⟨1 / 10, .equivalent hba he, by simp [weight]⟩
      · obtain ⟨r', h1, h2, h3⟩ := C47_nearest ho hi hb (not_lt.1 he) '!'
        rw [h1] at hm
        cases hm
        refine ⟨r - 1 / 2, .better r (not_lt.1 he) h2 h3, ?_⟩
        simp [weight, Nat.one_le_iff_ne_zero.1 h2]
  obtain ⟨w, hw1, hw2⟩ := hw
  refine ⟨w, hw1, rfl, ?_⟩
  simp only [List.map_append, List.sum_append, hw2, ← newBest_iff]
  congr 1
  split_ifs
  · simp [weight]; ring
  · simp

/-- The score never falls within a generation, and the target stays. -/
theorem step_score_mono (n : ℕ) (p p' : Pop) (e : Reporter.Event) (x : ℝ) (hx : p.sq.score = some x)
    (h : step n p (.reporter e) = some p') :
    ∃ y, x ≤ y ∧ p'.sq.score = some y ∧ p'.sq.sqs = p.sq.sqs := by
  simp only [step] at h
  cases hs : Reporter.step n p.rep e with
  | none => rw [hs] at h; cases h
  | some s =>
    rw [hs] at h
    injection h with h
    subst h
    obtain ⟨l, hl⟩ := step_repl n p.rep s e hs
    rw [news_of hl, run_ratios _ x hx]
    exact ⟨_, by linarith [weights_nonneg l], rfl, rfl⟩

theorem run_score_mono (n : ℕ) (es : List Reporter.Event) (p p' : Pop) (x : ℝ)
    (hx : p.sq.score = some x) (h : run n p (es.map .reporter) = some p') :
    ∃ y, x ≤ y ∧ p'.sq.score = some y ∧ p'.sq.sqs = p.sq.sqs := by
  induction es generalizing p x with
  | nil => simp only [List.map_nil, run, Option.some.injEq] at h; subst h; exact ⟨x, le_rfl, hx, rfl⟩
  | cons e es ih =>
    simp only [List.map_cons, run] at h
    cases hs : step n p (.reporter e) with
    | none => rw [hs] at h; cases h
    | some q =>
      rw [hs] at h
      obtain ⟨y, h1, h2, h3⟩ := step_score_mono n p q e x hx hs
      obtain ⟨z, h4, h5, h6⟩ := ih q y h2 h
      exact ⟨z, h1.trans h4, h5, h6.trans h3⟩

theorem run_append (n : ℕ) (es es' : List Event) (p p' : Pop) (h : run n p (es ++ es') = some p') :
    ∃ q, run n p es = some q ∧ run n q es' = some p' := by
  induction es generalizing p with
  | nil => exact ⟨p, rfl, h⟩
  | cons e es ih =>
    simp only [List.cons_append, run] at h ⊢
    cases hs : step n p e with
    | none => rw [hs] at h; cases h
    | some q => rw [hs] at h; exact ih q h

/-- C68, for targets up to 0.6 (30 members with the default target fraction): if, since the last
inquiry, a challenger that is not worse than its target was a new best individual, then the status
quo is kept whatever the draw, so the range is not scaled down.

The full property says so for every target score; that fails, see
`C68_new_best_scaled_down`. -/
theorem C68_new_best_kept_partial (n : ℕ) (p q p' : Pop) (es es' : List Reporter.Event) (i o : ℕ)
    (np f : Bool) (a b : ℚ) (u₀ u : ℝ) (hu : u < 1)
    (hq : run n p (.inquiry u₀ :: es.map .reporter) = some q)
    (hr : q.rep.running = true) (ho : Scored (q.rep.store o) a) (hi : Scored (q.rep.store i) b)
    (hba : b ≤ a) (hnew : NewBest q.rep i)
    (hs : run n q (.reporter (.report i (some o) np f) :: es'.map .reporter) = some p')
    (h0 : 0 < p.sq.sqs) (h6 : p.sq.sqs ≤ 6 / 10) :
    answer p' u = some true := by
  simp only [run, step] at hq
  obtain ⟨x, x0, hx, hsq⟩ := run_score_mono n es _ q 0 (C20_inquiry_resets p.sq u₀) hq
  have hsq' : q.sq.sqs = p.sq.sqs := by
    have : (replacement p.sq ⟨none, none, u₀⟩).1.sqs = p.sq.sqs := by
      rw [show (⟨none, none, u₀⟩ : Replacement.Call) = inquiry u₀ from rfl, inquiry_resets]
    rw [hsq]
    exact this
  simp only [run] at hs
  cases hst : step n q (.reporter (.report i (some o) np f)) with
  | none => rw [hst] at hs; cases hs
  | some r =>
    rw [hst] at hs
    have hsr : r.sq.sqs = q.sq.sqs ∧ ∃ y, r.sq.score = some y ∧ 6 / 10 ≤ y := by
      simp only [step, Reporter.step, Option.some.injEq] at hst
      subst hst
      rw [news_of (report_repl n q.rep hr i o np f), run_ratios _ x hx]
      refine ⟨rfl, _, rfl, ?_⟩
      rw [if_pos ((newBest_iff _ _).2 hnew)]
      have hsome : (msgRatio (q.rep.store o) (q.rep.store i) '!').1 ≠ none := by
        rw [Ne, C47_none_iff ho hi]; exact not_lt.2 hba
      obtain ⟨r', hr'⟩ := Option.ne_none_iff_exists'.1 hsome
      rw [hr']
      have := weight_pos r'
      simp only [Option.toList, List.singleton_append, List.map_cons, List.map_nil, List.sum_cons,
        List.sum_nil]
      have h1 : weight 1 = 1 / 2 := by norm_num [weight]
      rw [h1]
      linarith
    obtain ⟨hr1, y, hy, hy6⟩ := hsr
    obtain ⟨z, hz, hz1, hz2⟩ := run_score_mono n es' r p' y hy hs
    simp only [answer, Replacement.replacement, Replacement.Call.setsTarget, hz1]
    rw [hz2, hr1, hsq', C20_target_reached z p.sq.sqs u h0 (by linarith) hu]

/-- The chance of a score of 0.6 with a target of 2 is below 0.9. -/
theorem low_chance : keepStatusQuo (6 / 10) 2 (9 / 10) = false := by
  unfold keepStatusQuo
  simp only
  rw [if_neg (by norm_num)]
  have hs : Real.sin (Real.pi * (6 / 10 / 2 - 0.5)) ≤ 0 := by
    apply Real.sin_nonpos_of_nonpos_of_neg_pi_le
    · have := Real.pi_pos; nlinarith
    · have := Real.pi_pos; nlinarith
  simp only [decide_eq_false_iff_not, not_lt]
  linarith

/-! ### A run that gives up although every generation brings a new best individual -/

/-- Individual `k` is one percent better than individual `k - 1`. -/
def improving : ℕ → Individual := fun k => ⟨some (.fin ((99 / 100) ^ k)), [k]⟩

/-- The population before generation `k` (100 members, target 2): at first, the best member is
reported; in each generation the only challenger that wins is one percent better than the best
member, and the generation ends with the inquiry. -/
noncomputable def before : ℕ → Pop
  | 0 => ⟨(Reporter.report 0 (Reporter.new improving) 0 none true true).1, Replacement.new 2⟩
  | k + 1 => (run 0 (before k) [.reporter (.report (k + 1) (some k) false false),
      .inquiry (9 / 10)]).getD (before k)

/-- The population at the end of generation `k`, when the inquiry is made. -/
noncomputable def atEnd (k : ℕ) : Pop :=
  (run 0 (before k) [.reporter (.report (k + 1) (some k) false false)]).getD (before k)

theorem improving_scored (k : ℕ) : Scored (improving k) ((99 / 100) ^ k) := ⟨rfl, by positivity⟩

theorem improving_lt (k : ℕ) : (improving (k + 1)).lt (improving k) = true := by
  rw [(improving_scored (k + 1)).lt (improving_scored k), decide_eq_true_eq, pow_succ]
  have : (0 : ℚ) < (99 / 100) ^ k := by positivity
  linarith

theorem runCallbacks_none (s : Reporter.St) (i : ℕ) (o : Option ℕ) :
    (runCallbacks 0 s i o).iBest = s.iBest ∧ (runCallbacks 0 s i o).store = s.store ∧
      (runCallbacks 0 s i o).running = s.running := by
  unfold runCallbacks whileLoop
  simp only
  split_ifs <;> exact ⟨rfl, rfl, rfl⟩

theorem newBest_better (s : Reporter.St) (i : ℕ) (f : Bool) (h : better s i = true) :
    (newBest 0 s i f).iBest = some i ∧ (newBest 0 s i f).store = s.store ∧
      (newBest 0 s i f).running = s.running := by
  obtain ⟨g, hg⟩ := newBest_cases 0 s i f
  rw [hg, best1, if_pos h]
  split
  · exact runCallbacks_none _ _ _
  · exact ⟨rfl, rfl, rfl⟩

theorem put_keeps (s : Reporter.St) (np : Bool) (c : Char) :
    (put s np c).iBest = s.iBest ∧ (put s np c).store = s.store ∧
      (put s np c).running = s.running := by
  unfold put; split_ifs <;> exact ⟨rfl, rfl, rfl⟩

theorem report_better (s : Reporter.St) (hr : s.running = true) (i o : ℕ) (np f : Bool)
    (h : better s i = true) :
    (Reporter.report 0 s i (some o) np f).1.iBest = some i ∧
      (Reporter.report 0 s i (some o) np f).1.store = s.store ∧
      (Reporter.report 0 s i (some o) np f).1.running = true := by
  unfold Reporter.report Reporter.call
  simp only [hr, Bool.not_true, Bool.false_eq_true, if_false]
  generalize hq : (msgRatio (s.store o) (s.store i) '!') = q
  obtain ⟨r, c⟩ := q
  have hb := (put_better s i np c).1
  simp only [hb, h, if_true]
  have hp := put_keeps s np c
  obtain ⟨h1, h2, h3⟩ := newBest_better (put s np c) i f (hb.trans h)
  have hp' := put_keeps (newBest 0 (put s np c) i f) np '+'
  cases r with
  | none => exact ⟨hp'.1.trans h1, hp'.2.1.trans (h2.trans hp.2.1), hp'.2.2.trans (h3.trans (hp.2.2.trans hr))⟩
  | some r => exact ⟨hp'.1.trans h1, hp'.2.1.trans (h2.trans hp.2.1), hp'.2.2.trans (h3.trans (hp.2.2.trans hr))⟩

/-- The generations, one by one. -/
theorem before_spec (k : ℕ) :
    (before k).rep.iBest = some k ∧ (before k).rep.store = improving ∧
      (before k).rep.running = true ∧ (before k).sq.sqs = 2 ∧
      (before k).sq.score = if k = 0 then none else some 0 := by
  induction k with
  | zero =>
    have hb : (improving 0).toBool = true := (improving_scored 0).toBool
    have hst : (Reporter.new improving).store 0 = improving 0 := rfl
    have h := newBest_better (Reporter.new improving) 0 true rfl
    have hp := put_keeps (newBest 0 (Reporter.new improving) 0 true) true '*'
    have e : (Reporter.report 0 (Reporter.new improving) 0 none true true).1 =
        put (newBest 0 (Reporter.new improving) 0 true) true '*' := by
      unfold Reporter.report Reporter.call
      simp only [hst, hb]
      rfl
    refine ⟨?_, ?_, ?_, rfl, rfl⟩
    · simp only [before, e]; exact hp.1.trans h.1
    · simp only [before, e]; exact hp.2.1.trans h.2.1
    · simp only [before, e]; exact hp.2.2.trans h.2.2
  | succ k ih =>
    obtain ⟨h1, h2, h3, h4, h5⟩ := ih
    have hbet : better (before k).rep (k + 1) = true := by
      simp only [better, h1, h2]; exact improving_lt k
    obtain ⟨r1, r2, r3⟩ := report_better (before k).rep h3 (k + 1) k false false hbet
    simp only [before, run, step, Reporter.step, Option.getD_some]
    refine ⟨r1, r2.trans h2, r3, ?_, ?_⟩
    · have := inquiry_resets (Replacement.run (before k).sq
        ((news (before k).rep (Reporter.report 0 (before k).rep (k + 1) (some k) false false).1).map
          fun q => (⟨some q, none, 0⟩ : Replacement.Call))) (9 / 10)
      rw [show (⟨none, none, 9 / 10⟩ : Replacement.Call) = inquiry (9 / 10) from rfl, this]
      simp only
      generalize news _ _ = l
      have : ∀ (l : List ℕ) (s : Replacement.St),
          (Replacement.run s (l.map fun q => ⟨some q, none, 0⟩)).sqs = s.sqs := by
        intro l
        induction l with
        | nil => intro s; rfl
        | cons a l ih =>
          intro s
          simp only [List.map_cons, Replacement.run, List.foldl_cons]
          refine (ih _).trans ?_
          simp only [replacement, Replacement.Call.setsTarget]
          split <;> rfl
      rw [this, h4]
    · rw [if_neg (by omega)]
      exact C20_inquiry_resets _ _

theorem atEnd_answer (k : ℕ) : answer (atEnd (k + 1)) (9 / 10) = some false := by
  obtain ⟨h1, h2, h3, h4, h5⟩ := before_spec (k + 1)
  rw [if_neg (by omega)] at h5
  have hbet : better (before (k + 1)).rep (k + 2) = true := by
    simp only [better, h1, h2]; exact improving_lt (k + 1)
  have hm : (msgRatio (improving (k + 1)) (improving (k + 2)) '!').1 = some 0 := by
    have hpos : (0 : ℚ) < (99 / 100) ^ (k + 1) := by positivity
    rw [C47_zero_iff_partial (improving_scored (k + 1)) (improving_scored (k + 2)) hpos,
      pow_succ (99 / 100 : ℚ) (k + 1)]
    constructor <;> linarith
  simp only [atEnd, run, step, Reporter.step, Option.getD_some, answer]
  rw [news_of (report_repl 0 (before (k + 1)).rep h3 (k + 1 + 1) (k + 1) false false),
    if_pos hbet, h2, hm, run_ratios _ 0 h5]
  simp only [replacement, Replacement.Call.setsTarget, h4]
  have hs : (0 : ℝ) + (([1] ++ (some 0 : Option ℕ).toList).map weight).sum = 6 / 10 := by
    norm_num [weight]
  rw [hs, low_chance]

/-- Settings of the example run. -/
def cfg : RunLoop.Cfg := ⟨1000, 5, false, 7, false, none⟩

/-- What its loop sees: nothing disturbs the run, and the answer to the inquiry is that of the
population above. -/
noncomputable def env (k : ℕ) : RunLoop.Env :=
  ⟨true, fun _ => 0, fun _ => some 1, fun _ => true, true, true,
    (answer (atEnd k) (9 / 10)).getD false, true⟩

/-- The same with the answers worked out. -/
def env' (k : ℕ) : RunLoop.Env :=
  ⟨true, fun _ => 0, fun _ => some 1, fun _ => true, true, true, k == 0, true⟩

theorem env_eq : env = env' := by
  funext k
  unfold env env'
  cases k with
  | zero =>
    have : answer (atEnd 0) (9 / 10) = some true := by
      obtain ⟨h1, h2, h3, h4, h5⟩ := before_spec 0
      rw [if_pos rfl] at h5
      simp only [atEnd, run, step, Reporter.step, Option.getD_some, answer]
      generalize news _ _ = l
      have hn : ∀ (l : List ℕ) (s : Replacement.St), s.score = none →
          (Replacement.run s (l.map fun q => ⟨some q, none, 0⟩)).score = none := by
        intro l
        induction l with
        | nil => intro s hs; exact hs
        | cons a l ih =>
          intro s hs
          simp only [List.map_cons, Replacement.run, List.foldl_cons]
          refine ih _ ?_
          simp [replacement, Replacement.Call.setsTarget, hs]
      simp only [replacement, Replacement.Call.setsTarget, hn l _ h5]
    rw [this]; rfl
  | succ k => rw [atEnd_answer k]; rfl

/-- C68, negation: in each generation of this run a challenger one percent better than the best member
becomes the new best individual, and from the second generation on the range is scaled down all the
same, until the run gives up, although "so long as the best individual in the population keeps getting
better with each generation" it should continue. -/
theorem C68_new_best_scaled_down :
    (∀ k, (before k).rep.iBest = some k ∧
      ((before k).rep.store (k + 1)).lt ((before k).rep.store k) = true ∧
      (before (k + 1)).rep.iBest = some (k + 1)) ∧
    (∀ k, answer (atEnd (k + 1)) (9 / 10) = some false) ∧
    (∀ k, (env k).keep = (answer (atEnd k) (9 / 10)).getD false) ∧
    ∃ k, (RunLoop.run cfg FManager.demo env (.range (1 / 2) 1) true).2 = .gaveUp k := by
  refine ⟨fun k => ⟨(before_spec k).1, ?_, (before_spec (k + 1)).1⟩, atEnd_answer, fun _ => rfl,
    28, ?_⟩
  · rw [(before_spec k).2.1]; exact improving_lt k
  · rw [env_eq]; decide +kernel

/-- Non-vacuity: an improvement from 100 to 40 is worth 1.5 or 2.5 (the quotient 2.5 is rounded), one
from 100 to 99 a tenth. -/
example : Worth 100 40 (2 - 1 / 2) ∧ Worth 100 99 (1 / 10) ∧ Worth 40 100 0 := by
  have h := Worth.better (a := 100) (b := 40) 2 (by norm_num) (by norm_num)
    (by norm_num [Nearest, abs_le])
  refine ⟨by exact_mod_cast h, .equivalent (by norm_num) (by norm_num), .lost (by norm_num)⟩

/-- Non-vacuity: the second generation of the example above meets the hypotheses of
`C68_report_adds`. -/
example : (before 1).rep.running = true ∧ Scored ((before 1).rep.store 1) (99 / 100) ∧
    Scored ((before 1).rep.store 2) ((99 / 100) ^ 2) ∧ (before 1).sq.score = some 0 ∧
    NewBest (before 1).rep 2 := by
  obtain ⟨h1, h2, h3, -, h5⟩ := before_spec 1
  refine ⟨h3, by rw [h2]; simpa using improving_scored 1, by rw [h2]; exact improving_scored 2, h5, ?_⟩
  intro b hb
  rw [h1] at hb
  cases hb
  rw [h2]
  exact improving_lt 1

/-- After the first step of that run a new best individual is reported. -/
theorem before_newBest : NewBest (before 1).rep 2 := by
  obtain ⟨h1, h2, -⟩ := before_spec 1
  intro b hb
  rw [h1] at hb
  cases hb
  rw [h2]
  exact improving_lt 1

example :=
  have h := before_spec 1
  C68_report_adds 0 (before 1) _ 2 1 false false ((99 / 100) ^ 1) ((99 / 100) ^ 2) 0 h.2.2.1
    (by rw [h.2.1]; exact improving_scored 1) (by rw [h.2.1]; exact improving_scored 2) (by norm_num)
    (by simpa using h.2.2.2.2) rfl

/-- The same state with a low target. -/
noncomputable def lowTarget : Pop := ⟨(before 1).rep, ⟨some 0, 1 / 2⟩⟩

example :=
  have h := before_spec 1
  C68_new_best_kept_partial 0 lowTarget _ _ [] [] 2 1 false false ((99 / 100) ^ 1) ((99 / 100) ^ 2) (9 / 10) (9 / 10)
    (by norm_num) rfl h.2.2.1 (show Scored ((before 1).rep.store 1) _ by rw [h.2.1]; exact improving_scored 1)
    (show Scored ((before 1).rep.store 2) _ by rw [h.2.1]; exact improving_scored 2) (by norm_num) before_newBest rfl
    (show (0 : ℝ) < 1 / 2 by norm_num) (show (1 / 2 : ℝ) ≤ 6 / 10 by norm_num)

end Generation
end Ade
