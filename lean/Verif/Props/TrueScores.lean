import Verif.Lemmas.Cases
import Verif.Props.Whole
import Verif.Props.SaveLoad

/-!
# Property C142: the score of a member is the score of its values

Whoever reads the score and the values of a member takes the one for the score of the other. Here: whether the evaluation
function really returned that score for those values, through a setup (`Verif/Model/Setup.lean`), any execution of a run
(`Verif/Model/DESystem.lean`, `Verif/Model/Challenge.lean`) and a resumption from a file (`Verif/Model/SaveLoad.lean`).
-/

set_option autoImplicit false

namespace Ade
namespace TrueScores

open Setup (Cfg St Event Proper start)
open ParamManager DESystem

/-- An evaluation function: of the values, and of the score of the target if `xSSE` is set. -/
abbrev Func := List ℚ → Option PyFloat → Individual.EvalResult

/-! ## Specification -/

/-- The evaluation function returned this individual's score for this individual's values. -/
def Truthful (f : Func) (i : Individual) : Prop := ∃ y, f i.values y = .done i.stored

/-- In an execution of a setup, each evaluation ends with what the evaluation function returns for the values of the individual
being evaluated. -/
def Honest (f : Func) (cfg : Cfg) : St → List Event → Prop
  | _, [] => True
  | s, e :: es =>
    (∀ id r, e = .finish id r → ∀ fl ∈ s.flights, fl.id = id → r = f fl.ind.values none) ∧
      ∀ s', Setup.step cfg s e = some s' → Honest f cfg s' es

/-! ## Setup -/

theorem step_truthful (f : Func) {cfg : Cfg} (hb : cfg.blank = false) {s s' : St} (e : Event)
    (hh : ∀ id r, e = .finish id r → ∀ fl ∈ s.flights, fl.id = id → r = f fl.ind.values none)
    (hs : ∀ i ∈ s.members, Truthful f i) (hst : Setup.step cfg s e = some s') : ∀ i ∈ s'.members, Truthful f i := by
  cases e with
  | resume =>
    simp only [Setup.step] at hst
    split at hst
    · cases hst
    · split at hst
      · injection hst with hst; subst hst
        unfold Setup.done
        split <;> exact hs
      · injection hst with hst; subst hst
        unfold Setup.round
        split
        · simpa only [hb, Bool.false_eq_true, if_false] using hs
        · exact hs
  | abort =>
    simp only [Setup.step] at hst
    have : s' = { s with running := false } := by
      cases hph : s.phase <;> rw [hph] at hst <;> simp at hst <;> exact hst.symm
    subst this
    exact hs
  | finish id r =>
    simp only [Setup.step] at hst
    cases hf : s.flights.find? (fun f => f.id == id) with
    | none => rw [hf] at hst; simp at hst
    | some fl =>
      rw [hf] at hst
      simp only [Option.some.injEq] at hst
      subst hst
      have hmem := List.mem_of_find?_eq_some hf
      have hid : fl.id = id := by simpa using List.find?_some hf
      have hr := hh id r rfl fl hmem hid
      unfold Setup.evaluated
      split
      · exact hs
      · rename_i hbool
        split
        · intro i hi
          rcases List.mem_append.1 hi with hi | hi
          · exact hs i hi
          · rw [List.mem_singleton] at hi
            subst hi
            cases r with
            | failed =>
              exfalso
              apply hbool
              simp [Individual.finishEval, Individual.toBool, Individual.setSSE, PyFloat.isNaN, PyFloat.le, PyFloat.lt,
                PyFloat.eq, PyFloat.zero]
            | done x => exact ⟨none, hr.symm⟩
        · exact hs

/-- C142: each member of a population being set up has the score the evaluation function returned for its values. -/
theorem C142_setup (f : Func) (cfg : Cfg) (hb : cfg.blank = false) (es : List Event) (s : St)
    (hr : Setup.run cfg start es = some s) (hh : Honest f cfg start es) : ∀ i ∈ s.members, Truthful f i := by
  have key : ∀ (es : List Event) (s₀ : St), (∀ i ∈ s₀.members, Truthful f i) → Honest f cfg s₀ es →
      Setup.run cfg s₀ es = some s → ∀ i ∈ s.members, Truthful f i := by
    intro es
    induction es with
    | nil =>
      intro s₀ h₀ _ hr
      simp only [Setup.run, Option.some.injEq] at hr
      subst hr; exact h₀
    | cons e es ih =>
      intro s₀ h₀ hh hr
      simp only [Setup.run] at hr
      cases hst : Setup.step cfg s₀ e with
      | none => rw [hst] at hr; simp at hr
      | some s₁ =>
        rw [hst] at hr
        exact ih s₁ (step_truthful f hb e hh.1 h₀ hst) (hh.2 s₁ hst) hr
  exact key es start (by simp [start]) hh hr

/-! ## A run -/

/-- `Q` holds of all members at any time if it does at the start and challengers have the stronger property `R`. A member that
no individual with `R` is better than stays. -/
theorem members_inv {I : Type} (P : Params I) (n : ℕ) (hidx : ∀ j, ∀ k ∈ (P.req j).idx, k < n) (Q R : I → Prop)
    (hRQ : ∀ c, R c → Q c)
    (htrial : ∀ j t b i0 i1 c, Q t → Q b → Q i0 → Q i1 → (P.req j).trial t b i0 i1 = .evaluated c → R c)
    (pop₀ : ℕ → I) (h₀ : ∀ k, k < n → Q (pop₀ k)) (k₀ : ℕ) (s : Sys I) (hs : Reachable P pop₀ s) :
    (∀ k, k < n → Q (s.pop k)) ∧ (∀ j t c, s.phase j = .evaluating t (.evaluated c) → R c) ∧
    ((∀ c, R c → P.lt c (pop₀ k₀) = false) →
      s.pop k₀ = pop₀ k₀ ∧ ∀ j t o, s.phase j = .evaluating t o → (P.req j).kt = k₀ → t = pop₀ k₀) := by
  obtain ⟨acts, ha⟩ := hs
  refine run_induction (P := P) (fun s => (∀ k, k < n → Q (s.pop k)) ∧
    (∀ j t c, s.phase j = .evaluating t (.evaluated c) → R c) ∧
    ((∀ c, R c → P.lt c (pop₀ k₀) = false) →
      s.pop k₀ = pop₀ k₀ ∧ ∀ j t o, s.phase j = .evaluating t o → (P.req j).kt = k₀ → t = pop₀ k₀)) ?_ acts (init pop₀) s
      ⟨h₀, by simp [init], fun _ => ⟨rfl, by simp [init]⟩⟩ ha
  rintro s a s' ⟨hp, he, hk⟩ hst
  -- what a change of one phase to one without a challenger keeps
  have keepR : ∀ (j : ℕ) (ph : Phase I), (∀ t o, ph ≠ .evaluating t o) →
      ∀ j' t c, Function.update s.phase j ph j' = .evaluating t (.evaluated c) → R c := by
    intro j ph hph j' t c hj
    rw [Function.update_apply] at hj
    split at hj
    · exact absurd hj (hph _ _)
    · exact he j' t c hj
  have keepT : ∀ (j : ℕ) (ph : Phase I), (∀ t o, ph ≠ .evaluating t o) →
      (∀ j' t o, s.phase j' = .evaluating t o → (P.req j').kt = k₀ → t = pop₀ k₀) →
      ∀ j' t o, Function.update s.phase j ph j' = .evaluating t o → (P.req j').kt = k₀ → t = pop₀ k₀ := by
    intro j ph hph h j' t o hj
    rw [Function.update_apply] at hj
    split at hj
    · exact absurd hj (hph _ _)
    · exact h j' t o hj
  cases a with
  | issue =>
    simp only [step] at hst
    split at hst <;>
    · injection hst with hst; subst hst
      exact ⟨hp, keepR _ _ (by simp), fun h => ⟨(hk h).1, keepT _ _ (by simp) (hk h).2⟩⟩
  | grant j =>
    have hq : ∀ k ∈ (P.req j).idx, Q (s.pop k) := fun k h => hp k (hidx j k h)
    simp only [Req.idx, List.mem_cons, List.not_mem_nil, or_false, forall_eq_or_imp, forall_eq] at hq
    simp only [step] at hst
    split at hst
    · split at hst
      · split at hst
        · split at hst
          · injection hst with hst; subst hst
            exact ⟨hp, keepR _ _ (by simp), fun h => ⟨(hk h).1, keepT _ _ (by simp) (hk h).2⟩⟩
          · injection hst with hst; subst hst
            refine ⟨hp, ?_, fun h => ⟨(hk h).1, ?_⟩⟩
            · intro j' t c hj
              simp only [Function.update_apply] at hj
              split at hj
              · injection hj with h1 h2
                exact htrial j _ _ _ _ c hq.1 hq.2.1 hq.2.2.1 hq.2.2.2 h2
              · exact he j' t c hj
            · intro j' t o hj hkt
              simp only [Function.update_apply] at hj
              split at hj
              · rename_i hjj
                subst hjj
                injection hj with h1 h2
                rw [← h1, hkt]
                exact (hk h).1
              · exact (hk h).2 j' t o hj hkt
        · injection hst with hst; subst hst
          exact ⟨hp, keepR _ _ (by simp), fun h => ⟨(hk h).1, keepT _ _ (by simp) (hk h).2⟩⟩
      · cases hst
    · cases hst
  | finish j =>
    simp only [step] at hst
    split at hst
    · rename_i target out hph
      split at hst
      · rename_i c _ _
        split at hst
        · rename_i hlt
          injection hst with hst; subst hst
          refine ⟨?_, keepR _ _ (by simp), fun h => ⟨?_, keepT _ _ (by simp) (hk h).2⟩⟩
          · intro k hkn
            simp only [Function.update_apply]
            split
            · exact hRQ _ (he j _ _ hph)
            · exact hp k hkn
          · simp only [Function.update_apply]
            split
            · rename_i hkk
              have ht := (hk h).2 j _ _ hph hkk.symm
              rw [ht, h _ (he j _ _ hph)] at hlt
              cases hlt
            · exact (hk h).1
        · split at hst <;>
          · injection hst with hst; subst hst
            exact ⟨hp, keepR _ _ (by simp), fun h => ⟨(hk h).1, keepT _ _ (by simp) (hk h).2⟩⟩
      · injection hst with hst; subst hst
        exact ⟨hp, keepR _ _ (by simp), fun h => ⟨(hk h).1, keepT _ _ (by simp) (hk h).2⟩⟩
    · cases hst
  | recorded j =>
    simp only [step] at hst
    split at hst
    · injection hst with hst; subst hst
      exact ⟨hp, keepR _ _ (by simp), fun h => ⟨(hk h).1, keepT _ _ (by simp) (hk h).2⟩⟩
    · cases hst
  | shutdown =>
    simp only [step] at hst
    injection hst with hst; subst hst
    exact ⟨hp, he, hk⟩

/-- What is known of a challenger that was evaluated. -/
theorem trial_evaluated (c : Challenge.Config) (d : Challenge.Draws) (f : Func) (t b i0 i1 i : Individual)
    (h : Challenge.trial c d f t b i0 i1 = .evaluated i) : Truthful f i ∧ i.values = Challenge.challenger c d t b i0 i1 := by
  rw [Challenge.trial_eq] at h
  split at h
  · split at h
    · rename_i hb
      injection h with h
      subst h
      cases hr : f (Challenge.challenger c d t b i0 i1) (Challenge.told c t) with
      | failed =>
        rw [hr] at hb
        simp [Individual.finishEval, Individual.toBool, Individual.setSSE, PyFloat.isNaN, PyFloat.le, PyFloat.lt,
          PyFloat.eq, PyFloat.zero] at hb
        exact absurd hb (by norm_num)
      | done x => exact ⟨⟨_, hr⟩, rfl⟩
    · cases h
  · cases h

/-- C142: if the scores of all members are those of their values, they are so at any time of any run on that population. -/
theorem C142_run (f : Func) (c : Challenge.Config) (n : ℕ) (idx : ℕ → ℕ × ℕ × ℕ × ℕ)
    (hidx : ∀ m, (idx m).1 < n ∧ (idx m).2.1 < n ∧ (idx m).2.2.1 < n ∧ (idx m).2.2.2 < n)
    (draws : ℕ → Challenge.Draws) (pop₀ : ℕ → Individual) (h₀ : ∀ k, k < n → Truthful f (pop₀ k)) (s : Sys Individual)
    (hs : Reachable (Challenge.params c idx draws fun _ => f) pop₀ s) (k : ℕ) (hk : k < n) : Truthful f (s.pop k) := by
  refine (members_inv (Challenge.params c idx draws fun _ => f) n ?_ (Truthful f) (Truthful f) (fun _ h => h) ?_ pop₀ h₀ 0 s
    hs).1 k hk
  · intro j k hk
    obtain ⟨h1, h2, h3, h4⟩ := hidx j
    simp only [Challenge.params, Req.idx, List.mem_cons, List.not_mem_nil, or_false] at hk
    rcases hk with rfl | rfl | rfl | rfl <;> assumption
  · intro j t b i0 i1 i _ _ _ _ h
    exact (trial_evaluated c (draws j) f t b i0 i1 i h).1

/-- C142: setup and run together. -/
theorem C142_setup_and_run (f : Func) (cfg : Cfg) (h : Proper cfg) (hb : cfg.blank = false) (es : List Event) (s₀ : St)
    (hr : Setup.run cfg start es = some s₀) (hd : s₀.phase = .finished true) (hh : Honest f cfg start es)
    (CR : ℚ) (xSSE : Bool) (idx : ℕ → ℕ × ℕ × ℕ × ℕ)
    (hidx : ∀ m, (idx m).1 < cfg.Np ∧ (idx m).2.1 < cfg.Np ∧ (idx m).2.2.1 < cfg.Np ∧ (idx m).2.2.2 < cfg.Np)
    (draws : ℕ → Challenge.Draws) (s : Sys Individual)
    (hs : Reachable (Challenge.params (Whole.config cfg CR xSSE) idx draws fun _ => f) (Whole.population s₀) s)
    (k : ℕ) (hk : k < cfg.Np) : Truthful f (s.pop k) := by
  obtain ⟨hN, -⟩ := Setup.C17_blank_setup cfg h es s₀ hr hd
  exact C142_run f _ cfg.Np idx hidx draws _
    (fun k hk => C142_setup f cfg hb es s₀ hr hh _ (Whole.population_mem s₀ k (by omega))) s hs k hk

/-! ## Resuming from a file -/

variable {F C H : Type}

/-- C142: loading without new bounds, or with bounds all members are within, keeps the scores true. -/
theorem C142_load_partial (f : Func) (p : SaveLoad.Pop F C H) (func cc : Option F) (bounds : List Bound)
    (hw : bounds = [] ∨ ∀ m ∈ p.iList, Within bounds m.ind.values) (ht : ∀ m ∈ p.iList, Truthful f m.ind) :
    ∀ m ∈ (SaveLoad.load (SaveLoad.getstate p) func cc bounds).iList, Truthful f m.ind := by
  rcases hw with rfl | hw
  · exact ht
  · by_cases he : bounds.isEmpty
    · intro m hm
      simp only [SaveLoad.load, he, if_true] at hm
      exact ht m hm
    · intro m hm
      simp only [SaveLoad.load, he, Bool.false_eq_true, if_false, SaveLoad.setstate, SaveLoad.getstate,
        List.mem_map] at hm
      obtain ⟨m', hm', rfl⟩ := hm
      have e : ParamManager.limit bounds m'.ind.values = m'.ind.values := C05_limit_legal _ _ (hw m' hm')
      have : (SaveLoad.limitMember bounds m').ind = m'.ind := by
        simp only [SaveLoad.limitMember, e]
      rw [this]
      exact ht m' hm'

/-- C142 fails for new bounds that exclude a member: a member whose score is lower than any score there is within the bounds is
never replaced, whatever the run does. -/
theorem C142_never_corrected (f : Func) (c : Challenge.Config) (hgb : GoodBounds c.bounds) (n : ℕ) (idx : ℕ → ℕ × ℕ × ℕ × ℕ)
    (hidx : ∀ m, (idx m).1 < n ∧ (idx m).2.1 < n ∧ (idx m).2.2.1 < n ∧ (idx m).2.2.2 < n)
    (draws : ℕ → Challenge.Draws) (pop₀ : ℕ → Individual) (hw : ∀ k, k < n → Within c.bounds (pop₀ k).values) (k : ℕ)
    (hbest : ∀ vs y x, Within c.bounds vs → f vs y = .done (some x) → x.lt (pop₀ k).SSE = false) (s : Sys Individual)
    (hs : Reachable (Challenge.params c idx draws fun _ => f) pop₀ s) : s.pop k = pop₀ k := by
  refine ((members_inv (Challenge.params c idx draws fun _ => f) n ?_ (fun i => i.values.length = c.bounds.length)
    (fun i => Truthful f i ∧ Within c.bounds i.values) (fun i h => h.2.length_eq.symm) ?_ pop₀
    (fun k hk => (hw k hk).length_eq.symm) k s hs).2.2 ?_).1
  · intro j k hk
    obtain ⟨h1, h2, h3, h4⟩ := hidx j
    simp only [Challenge.params, Req.idx, List.mem_cons, List.not_mem_nil, or_false] at hk
    rcases hk with rfl | rfl | rfl | rfl <;> assumption
  · intro j t b i0 i1 i _ hb h0 h1 h
    obtain ⟨h2, h3⟩ := trial_evaluated c (draws j) f t b i0 i1 i h
    refine ⟨h2, ?_⟩
    rw [h3]
    exact Challenge.C24_within c hgb (draws j) t b i0 i1 hb h0 h1
  · rintro i ⟨⟨y, hy⟩, hwi⟩
    show i.lt (pop₀ k) = false
    rw [Whole.lt_iff_SSE]
    cases hst : i.stored with
    | none =>
      have : i.SSE = .pinf := by simp [Individual.SSE, hst]
      rw [this]
      cases (pop₀ k).SSE <;> rfl
    | some x =>
      rw [hst] at hy
      by_cases hneg : x.lt .zero = true
      · have : i.SSE = .pinf := by simp [Individual.SSE, hst, hneg]
        rw [this]
        cases (pop₀ k).SSE <;> rfl
      · have : i.SSE = x := by simp [Individual.SSE, hst, hneg]
        rw [this]
        exact hbest _ _ _ hwi hy

/-! ## Refined bounds: an instance -/

/-- The function with the minimum 1 at 7. -/
def parabola : Func := fun vs _ => .done (some (.fin ((vs.headD 0 - 7) ^ 2 + 1)))

/-- A member with its true score. -/
def member (v : ℚ) : SaveLoad.Member := ⟨⟨some (.fin ((v - 7) ^ 2 + 1)), [v]⟩, some 1⟩

/-- A population in [0, 10] that has found the minimum. -/
def found : SaveLoad.Pop Unit (ParamManager.Dict → Bool) Unit where
  func := some ()
  complaint := none
  debug := false
  running := some true
  Nd := 1
  Np := 4
  popsize := 4
  targetFraction := 2 / 100
  statusQuoScore := 4 / 100
  iList := [member 7, member 1, member 2, member 3]
  pm := ⟨["x"], [0], [⟨0, 10⟩], []⟩
  history := ()
  counter := 40
  replacementScore := none
  held := [false, false, false, false]
  ranking := none
  reportedBest := some (member 7)

/-- That population loaded with the bounds refined to [0, 6]. -/
def refined : SaveLoad.Pop Unit (ParamManager.Dict → Bool) Unit :=
  SaveLoad.load (SaveLoad.getstate found) (some ()) none [⟨0, 6⟩]

/-- Its members by index. -/
def refinedPop : ℕ → Individual := fun k => (refined.iList.map (·.ind)).getD k ⟨none, []⟩

/-- The settings of a run on it. -/
def refinedConfig (CR : ℚ) (xSSE : Bool) : Challenge.Config := ⟨[⟨0, 6⟩], ["x"], [], CR, xSSE⟩

theorem parabola_within (vs : List ℚ) (y : Option PyFloat) (hw : Within [⟨0, 6⟩] vs) :
    ∃ x : ℚ, parabola vs y = .done (some (.fin x)) ∧ 2 ≤ x := by
  cases hw with
  | @cons _ v _ _ h1 h2 =>
    cases h2
    refine ⟨(v - 7) ^ 2 + 1, rfl, ?_⟩
    nlinarith [h1.1, h1.2]

theorem refined_members : refinedPop 0 = ⟨some (.fin 1), [5]⟩ ∧ refinedPop 1 = ⟨some (.fin 37), [1]⟩ ∧
    refinedPop 2 = ⟨some (.fin 26), [2]⟩ ∧ refinedPop 3 = ⟨some (.fin 17), [3]⟩ := by
  refine ⟨?_, ?_, ?_, ?_⟩ <;> decide +kernel

theorem refined_within (k : ℕ) (hk : k < 4) : Within [⟨0, 6⟩] (refinedPop k).values := by
  obtain ⟨h0, h1, h2, h3⟩ := refined_members
  obtain rfl | rfl | rfl | rfl : k = 0 ∨ k = 1 ∨ k = 2 ∨ k = 3 := by omega
  · rw [h0]; exact .cons (by norm_num) .nil
  · rw [h1]; exact .cons (by norm_num) .nil
  · rw [h2]; exact .cons (by norm_num) .nil
  · rw [h3]; exact .cons (by norm_num) .nil

/-- A score of at least 2 is worse than that of the first member. -/
theorem first_better (i : Individual) (x : ℚ) (hx : 2 ≤ x) (h : i.stored = some (.fin x)) :
    (Individual.mk (some (.fin 1)) [5]).lt i = true := by
  rw [Whole.lt_iff_SSE, Whole.sse_of_stored i (.fin x) h, Whole.sse_of_stored _ (.fin 1) rfl]
  · simp only [PyFloat.lt, decide_eq_true_eq]; linarith
  · decide +kernel
  · simp only [PyFloat.lt, PyFloat.zero, decide_eq_false_iff_not]; linarith

/-- C142 is false for the code: all scores of a population are true; after it is loaded with refined bounds one member has the
score 1 with a value whose score is 5; no value within the bounds has a score below 2; and whatever a run does, that member
stays, and is better than every other at any time, so it is what the run presents as the best. -/
theorem C142_refined_bounds (CR : ℚ) (xSSE : Bool) (idx : ℕ → ℕ × ℕ × ℕ × ℕ)
    (hidx : ∀ m, (idx m).1 < 4 ∧ (idx m).2.1 < 4 ∧ (idx m).2.2.1 < 4 ∧ (idx m).2.2.2 < 4)
    (draws : ℕ → Challenge.Draws) (s : Sys Individual)
    (hs : Reachable (Challenge.params (refinedConfig CR xSSE) idx draws fun _ => parabola) refinedPop s) :
    (∀ m ∈ found.iList, Truthful parabola m.ind) ∧
    s.pop 0 = ⟨some (.fin 1), [5]⟩ ∧ (∀ y, parabola [5] y = .done (some (.fin 5))) ∧
    (∀ vs y, Within [⟨0, 6⟩] vs → ∃ x : ℚ, parabola vs y = .done (some (.fin x)) ∧ 2 ≤ x) ∧
    ∀ k, k < 4 → k ≠ 0 → (s.pop 0).lt (s.pop k) = true := by
  have hpi : ∀ j, ∀ k ∈ ((Challenge.params (refinedConfig CR xSSE) idx draws fun _ => parabola).req j).idx, k < 4 := by
    intro j k hk
    obtain ⟨h1, h2, h3, h4⟩ := hidx j
    simp only [Challenge.params, Req.idx, List.mem_cons, List.not_mem_nil, or_false] at hk
    rcases hk with rfl | rfl | rfl | rfl <;> assumption
  have hgb : GoodBounds (refinedConfig CR xSSE).bounds := by
    intro b hb
    simp only [refinedConfig, List.mem_singleton] at hb
    subst hb; norm_num
  obtain ⟨m0, m1, m2, m3⟩ := refined_members
  have h0 : s.pop 0 = ⟨some (.fin 1), [5]⟩ := by
    rw [C142_never_corrected parabola (refinedConfig CR xSSE) hgb 4 idx hidx draws refinedPop refined_within 0 ?_ s hs, m0]
    intro vs y x hw hx
    obtain ⟨x', e, hx'⟩ := parabola_within vs y hw
    rw [e] at hx
    simp only [Individual.EvalResult.done.injEq, Option.some.injEq] at hx
    subst hx
    rw [m0, Whole.sse_of_stored _ (.fin 1) rfl (by decide +kernel)]
    simp only [PyFloat.lt, decide_eq_false_iff_not]; linarith
  refine ⟨?_, h0, ?_, parabola_within, ?_⟩
  · intro m hm
    simp only [found, List.mem_cons, List.not_mem_nil, or_false] at hm
    rcases hm with rfl | rfl | rfl | rfl <;> exact ⟨none, rfl⟩
  · intro y
    have e : (((5 : ℚ) - 7) ^ 2 + 1) = 5 := by norm_num
    simp only [parabola, List.headD_cons, e]
  · intro k hk hk0
    rw [h0]
    obtain ⟨acts, ha⟩ := hs
    rcases C88_members_evaluated _ _ acts s ha k with e | he
    · rw [e]
      obtain rfl | rfl | rfl : k = 1 ∨ k = 2 ∨ k = 3 := by omega
      · exact first_better _ 37 (by norm_num) (by rw [m1])
      · exact first_better _ 26 (by norm_num) (by rw [m2])
      · exact first_better _ 17 (by norm_num) (by rw [m3])
    · obtain ⟨pre, j, post, u, t, -, hu, -, hph⟩ := he
      have hR := (members_inv (Challenge.params (refinedConfig CR xSSE) idx draws fun _ => parabola) 4 hpi
        (fun i => i.values.length = 1) (fun i => Truthful parabola i ∧ Within [⟨0, 6⟩] i.values)
        (fun i h => h.2.length_eq.symm) ?_ refinedPop (fun k hk => (refined_within k hk).length_eq.symm) 0 u ⟨pre, hu⟩).2.1
        j t _ hph
      · obtain ⟨⟨y, hy⟩, hw⟩ := hR
        obtain ⟨x, e, hx⟩ := parabola_within _ y hw
        rw [e] at hy
        simp only [Individual.EvalResult.done.injEq] at hy
        exact first_better _ x hx hy.symm
      · intro j t b i0 i1 i _ hb h0 h1 h
        obtain ⟨h2, h3⟩ := trial_evaluated (refinedConfig CR xSSE) (draws j) parabola t b i0 i1 i h
        refine ⟨h2, ?_⟩
        rw [h3]
        exact Challenge.C24_within (refinedConfig CR xSSE) hgb (draws j) t b i0 i1 hb h0 h1

/-! ## Non-vacuity -/

namespace Demo

/-- Any values have the score 3. -/
def three : Func := fun _ _ => .done (some (.fin 3))

/-- Events of a setup of four members with that function. -/
def events : List Event :=
  [.resume, .resume, .finish 1 (.done (some (.fin 3))), .resume, .finish 2 (.done (some (.fin 3))), .resume,
    .finish 3 (.done (some (.fin 3))), .resume, .finish 4 (.done (some (.fin 3))), .resume,
    .finish 0 (.done (some (.fin 3))), .resume]

theorem honest (cfg : Cfg) (es : List Event) (hes : ∀ id r, Event.finish id r ∈ es → r = .done (some (.fin 3))) :
    ∀ s, Honest three cfg s es := by
  induction es with
  | nil => intro s; trivial
  | cons e es ih =>
    intro s
    refine ⟨?_, fun s' _ => ih (fun id r h => hes id r (List.mem_cons_of_mem _ h)) s'⟩
    rintro id r rfl fl _ _
    exact hes id r List.mem_cons_self

theorem honest_events : Honest three Whole.demo4 start events :=
  honest _ _ (by intro id r h; simp [events] at h; rcases h with h | h | h | h | h <;> exact h.2) _

/-- The state in which that setup ends. -/
def ended : St := (Setup.run Whole.demo4 start events).get (by decide +kernel)

example := C142_setup three Whole.demo4 rfl events ended (eq_get _) honest_events

example := C142_setup_and_run three Whole.demo4 Whole.demo4_proper rfl events ended (eq_get _) (by decide +kernel)
  honest_events (1 / 2) false (fun _ => (1, 0, 2, 3)) (fun _ => by simp [Whole.demo4, Setup.demo])
  (fun _ => ⟨1 / 2, 0, fun _ => 0⟩) _ ⟨[.issue, .grant 0, .finish 0, .recorded 0], eq_get (by decide +kernel)⟩ 1 (by decide)

/-- A population with true scores of the parabola. -/
def pop : ℕ → Individual := fun k => ⟨some (.fin ((k - 7) ^ 2 + 1)), [k]⟩

example := C142_run parabola (refinedConfig (1 / 2) false) 4 (fun _ => (1, 0, 2, 3)) (fun _ => by simp)
  (fun _ => ⟨1 / 2, 0, fun _ => 0⟩) pop (fun _ _ => ⟨none, rfl⟩) _
  ⟨[.issue, .grant 0, .finish 0, .recorded 0], eq_get (by decide +kernel)⟩ 1 (by decide)

example := C142_load_partial parabola found none none [⟨0, 8⟩]
  (.inr (by
    intro m hm
    simp only [found, List.mem_cons, List.not_mem_nil, or_false] at hm
    rcases hm with rfl | rfl | rfl | rfl <;> exact .cons (by norm_num) .nil))
  (by
    intro m hm
    simp only [found, List.mem_cons, List.not_mem_nil, or_false] at hm
    rcases hm with rfl | rfl | rfl | rfl <;> exact ⟨none, rfl⟩)

/-- A run on the population with refined bounds in which the first two members are challenged. -/
def refinedRun : Option (Sys Individual) :=
  run (Challenge.params (refinedConfig (1 / 2) false) (fun j => if j = 0 then (1, 0, 3, 2) else (0, 1, 3, 2))
    (fun _ => ⟨1, 0, fun _ => 0⟩) fun _ => parabola) (init refinedPop)
    [.issue, .grant 0, .finish 0, .issue, .grant 1, .finish 1, .recorded 1]

/-- The second member has got the best value there is, with the score 2; the first is still said to have the score 1. -/
example : refinedRun.map (fun s => (s.pop 0, s.pop 1)) =
    some (⟨some (.fin 1), [5]⟩, ⟨some (.fin 2), [6]⟩) := by decide +kernel

theorem refined_idx (m : ℕ) : let i := if m = 0 then (1, 0, 3, 2) else (0, 1, 3, 2)
    i.1 < 4 ∧ i.2.1 < 4 ∧ i.2.2.1 < 4 ∧ i.2.2.2 < 4 := by
  intro i
  unfold i
  split <;> decide

example := C142_refined_bounds (1 / 2) false _ refined_idx (fun _ => ⟨1, 0, fun _ => 0⟩)
  (refinedRun.get (by decide +kernel))
  ⟨[.issue, .grant 0, .finish 0, .issue, .grant 1, .finish 1, .recorded 1], eq_get (by decide +kernel)⟩

/-- The hypotheses of `C142_never_corrected` for the first member. -/
example := C142_never_corrected parabola (refinedConfig (1 / 2) false)
  (by intro b hb; simp only [refinedConfig, List.mem_singleton] at hb; subst hb; norm_num) 4 _ refined_idx
  (fun _ => ⟨1, 0, fun _ => 0⟩) refinedPop refined_within 0
  (by
    intro vs y x hw hx
    obtain ⟨x', e, hx'⟩ := parabola_within vs y hw
    rw [e] at hx
    simp only [Individual.EvalResult.done.injEq, Option.some.injEq] at hx
    subst hx
    rw [refined_members.1, Whole.sse_of_stored _ (.fin 1) rfl (by decide +kernel)]
    simp only [PyFloat.lt, decide_eq_false_iff_not]; linarith)
  (refinedRun.get (by decide +kernel))
  ⟨[.issue, .grant 0, .finish 0, .issue, .grant 1, .finish 1, .recorded 1], eq_get (by decide +kernel)⟩

end Demo

end TrueScores
end Ade
