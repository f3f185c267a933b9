import Verif.Model.Challenge
import Verif.Spec.Limit
import Verif.Props.ParamManager
import Verif.Props.DESystem
import Verif.Lemmas.PyFloat

/-!
# Properties C24, C30, C31: the challenger, legality through a run, unusable scores
-/

set_option autoImplicit false

namespace Ade
namespace Challenge
open ParamManager DESystem

theorem limit1_spec (b : Bound) (hb : b.lo ≤ b.hi) (v : ℚ) : LimitedTo b.lo b.hi v (limit1 b v) := by
  unfold limit1
  by_cases h1 : v < b.lo
  · simp only [if_pos h1]
    by_cases h2 : 2 * b.lo - v > b.hi
    · simp only [if_pos h2]
      rw [max_comm, min_eq_left (max_le hb (by linarith))]
      exact .farBelow h1 h2
    · simp only [if_neg h2]
      rw [max_eq_left (by linarith), min_eq_left (by linarith)]
      exact .below h1 (by linarith)
  · simp only [if_neg h1]
    by_cases h2 : v > b.hi
    · simp only [if_pos h2]
      rw [max_comm, min_eq_left (max_le hb (by linarith))]
      exact .above (by linarith) h2
    · simp only [if_neg h2]
      rw [max_eq_left (by linarith), min_eq_left (by linarith)]
      exact .inside (by linarith) (by linarith)

theorem crossover_step_length {α β : Type} [Inhabited α] [LT β] [DecidableLT β] (CR : β)
    (j : ℕ) (u : ℕ → β) (parent : List α) (ks : List ℕ) (m : List α) :
    (ks.foldl (fun m k => if k = j then m else if CR < u k then m.set k (parent.getD k default) else m)
      m).length = m.length := by
  induction ks generalizing m with
  | nil => rfl
  | cons k ks ih =>
    rw [List.foldl_cons, ih]
    split
    · rfl
    · split <;> simp

theorem crossover_foldl {α β : Type} [Inhabited α] [LT β] [DecidableLT β] (CR : β)
    (j : ℕ) (u : ℕ → β) (parent : List α) (n : ℕ) (m : List α) (k : ℕ) :
    ((List.range n).foldl (fun m k => if k = j then m else if CR < u k then
      m.set k (parent.getD k default) else m) m)[k]? =
      if k < n ∧ k < m.length ∧ k ≠ j ∧ CR < u k then some (parent.getD k default) else m[k]? := by
  induction n with
  | zero => simp
  | succ n ih =>
    rw [List.range_succ, List.foldl_append, List.foldl_cons, List.foldl_nil]
    set f := (List.range n).foldl (fun m k => if k = j then m else if CR < u k then
      m.set k (parent.getD k default) else m) m with hf
    have hlen : f.length = m.length := by rw [hf]; exact crossover_step_length CR j u parent _ m
    by_cases hnj : n = j
    · simp only [if_pos hnj, ih]
      by_cases hk : k = n
      · subst hk; simp [hnj]
      · have : (k < n + 1) ↔ k < n := by omega
        simp only [this]
    · simp only [if_neg hnj]
      by_cases hu : CR < u n
      · simp only [if_pos hu, List.getElem?_set, ih, hlen]
        by_cases hk : n = k
        · subst hk
          by_cases hm : n < m.length
          · simp [hm, hu, hnj]
          · simp [hm]
        · have : (k < n + 1) ↔ k < n := by omega
          simp only [if_neg hk, this]
      · simp only [if_neg hu, ih]
        by_cases hk : k = n
        · subst hk; simp [hu]
        · have : (k < n + 1) ↔ k < n := by omega
          simp only [this]

theorem donor_getElem? (b i0 i1 : Individual) (F : ℚ) (n : ℕ) (hb : b.values.length = n)
    (h0 : i0.values.length = n) (h1 : i1.values.length = n) (k : ℕ) (hk : k < n) :
    (donor b i0 i1 F).values[k]? =
      some (b.values.getD k 0 + F * (i0.values.getD k 0 - i1.values.getD k 0)) := by
  simp [donor, Individual.add, Individual.sub, Individual.scale, Individual.spawn,
    hb, h0, h1, hk, List.getD, mul_comm]

theorem donor_length (b i0 i1 : Individual) (F : ℚ) (n : ℕ) (hb : b.values.length = n)
    (h0 : i0.values.length = n) (h1 : i1.values.length = n) : (donor b i0 i1 F).values.length = n := by
  simp [donor, Individual.add, Individual.sub, Individual.scale, Individual.spawn, hb, h0, h1]

/-- The challenger's value of parameter `k`. -/
theorem challenger_getElem? (c : Config) (d : Draws) (t b i0 i1 : Individual)
    (hb : b.values.length = c.bounds.length)
    (h0 : i0.values.length = c.bounds.length) (h1 : i1.values.length = c.bounds.length)
    (k : ℕ) (hk : k < c.bounds.length) :
    (challenger c d t b i0 i1)[k]? = some (limit1 c.bounds[k]
      (if k ≠ d.j ∧ c.CR < d.u k then t.values.getD k 0
       else b.values.getD k 0 + d.F * (i0.values.getD k 0 - i1.values.getD k 0))) := by
  have hl := donor_length b i0 i1 d.F _ hb h0 h1
  unfold challenger limit crossover crossoverWith
  rw [List.getElem?_zipWith, crossover_foldl, donor_getElem? b i0 i1 d.F _ hb h0 h1 k hk, hl]
  simp only [hk, true_and]
  rw [List.getElem?_eq_getElem hk]
  by_cases h : k ≠ d.j ∧ c.CR < d.u k
  · simp only [if_pos h]; rfl
  · simp only [if_neg h]

theorem challenger_length (c : Config) (d : Draws) (t b i0 i1 : Individual)
    (hb : b.values.length = c.bounds.length)
    (h0 : i0.values.length = c.bounds.length) (h1 : i1.values.length = c.bounds.length) :
    (challenger c d t b i0 i1).length = c.bounds.length := by
  unfold challenger limit crossover crossoverWith
  rw [List.length_zipWith, crossover_step_length, donor_length b i0 i1 d.F _ hb h0 h1]
  simp

/-! ## C24 -/

/-- C24: every parameter of the challenger is the target's value or the limited donor value
`base + F*(r0 - r1)`, for a target within the bounds. -/
theorem C24_parameter_form (c : Config) (hgb : GoodBounds c.bounds) (d : Draws) (t b i0 i1 : Individual)
    (ht : Within c.bounds t.values) (hb : b.values.length = c.bounds.length)
    (h0 : i0.values.length = c.bounds.length) (h1 : i1.values.length = c.bounds.length)
    (k : ℕ) (hk : k < c.bounds.length) :
    ∃ w, (challenger c d t b i0 i1)[k]? = some w ∧
      (some w = t.values[k]? ∨
        LimitedTo (c.bounds[k]).lo (c.bounds[k]).hi
          (b.values.getD k 0 + d.F * (i0.values.getD k 0 - i1.values.getD k 0)) w) := by
  refine ⟨_, challenger_getElem? c d t b i0 i1 hb h0 h1 k hk, ?_⟩
  split
  · left
    have hlt : k < t.values.length := by rw [← ht.length_eq]; exact hk
    have hin := (List.forall₂_iff_get.1 ht).2 k hk hlt
    simp only [List.get_eq_getElem] at hin
    have e : t.values.getD k 0 = t.values[k] := by simp [List.getD, hlt]
    rw [e, List.getElem?_eq_getElem hlt]
    congr 1
    unfold limit1
    simp [not_lt.2 hin.1, not_lt.2 hin.2, hin.1, hin.2]
  · right; exact limit1_spec _ (hgb _ (List.getElem_mem _)) _

/-- C24: the parameter chosen by the crossover, and every one whose draw does not exceed the crossover
rate, is the donor's; the others are the target's. -/
theorem C24_from_donor (c : Config) (hgb : GoodBounds c.bounds) (d : Draws) (t b i0 i1 : Individual)
    (hb : b.values.length = c.bounds.length)
    (h0 : i0.values.length = c.bounds.length) (h1 : i1.values.length = c.bounds.length)
    (k : ℕ) (hk : k < c.bounds.length) (hd : k = d.j ∨ d.u k ≤ c.CR) :
    ∃ w, (challenger c d t b i0 i1)[k]? = some w ∧
      LimitedTo (c.bounds[k]).lo (c.bounds[k]).hi
        (b.values.getD k 0 + d.F * (i0.values.getD k 0 - i1.values.getD k 0)) w := by
  refine ⟨_, challenger_getElem? c d t b i0 i1 hb h0 h1 k hk, ?_⟩
  rw [if_neg (by rintro ⟨h, h'⟩; rcases hd with hd | hd; exacts [h hd, absurd h' (not_lt.2 hd)])]
  exact limit1_spec _ (hgb _ (List.getElem_mem _)) _

/-- C24: a parameter that is neither the chosen one nor drawn within the crossover rate is the
target's. -/
theorem C24_from_target (c : Config) (d : Draws) (t b i0 i1 : Individual)
    (ht : Within c.bounds t.values) (hb : b.values.length = c.bounds.length)
    (h0 : i0.values.length = c.bounds.length) (h1 : i1.values.length = c.bounds.length)
    (k : ℕ) (hk : k < c.bounds.length) (hj : k ≠ d.j) (hu : c.CR < d.u k) :
    (challenger c d t b i0 i1)[k]? = t.values[k]? := by
  rw [challenger_getElem? c d t b i0 i1 hb h0 h1 k hk, if_pos ⟨hj, hu⟩]
  have hlt : k < t.values.length := by rw [← ht.length_eq]; exact hk
  have hin := (List.forall₂_iff_get.1 ht).2 k hk hlt
  simp only [List.get_eq_getElem] at hin
  have e : t.values.getD k 0 = t.values[k] := by simp [List.getD, hlt]
  rw [e, List.getElem?_eq_getElem hlt]
  congr 1
  unfold limit1
  simp [not_lt.2 hin.1, not_lt.2 hin.2, hin.1, hin.2]

/-- C24: with crossover rate 1 every parameter is the donor's (draws are below 1), and whatever the
rate at least one is. -/
theorem C24_donor_share (c : Config) (hgb : GoodBounds c.bounds) (d : Draws) (t b i0 i1 : Individual)
    (hb : b.values.length = c.bounds.length)
    (h0 : i0.values.length = c.bounds.length) (h1 : i1.values.length = c.bounds.length)
    (hj : d.j < c.bounds.length) (hu : ∀ k, d.u k < 1) :
    let FromDonor := fun k => ∃ hk : k < c.bounds.length, ∃ w,
      (challenger c d t b i0 i1)[k]? = some w ∧
        LimitedTo (c.bounds[k]).lo (c.bounds[k]).hi
          (b.values.getD k 0 + d.F * (i0.values.getD k 0 - i1.values.getD k 0)) w
    (∃ k, FromDonor k) ∧ (c.CR = 1 → ∀ k, k < c.bounds.length → FromDonor k) := by
  refine ⟨⟨d.j, hj, C24_from_donor c hgb d t b i0 i1 hb h0 h1 d.j hj (.inl rfl)⟩, fun hCR k hk =>
    ⟨hk, C24_from_donor c hgb d t b i0 i1 hb h0 h1 k hk (.inr ?_)⟩⟩
  rw [hCR]; exact (hu k).le

/-- C24: the challenger is within the bounds. -/
theorem C24_within (c : Config) (hgb : GoodBounds c.bounds) (d : Draws) (t b i0 i1 : Individual)
    (hb : b.values.length = c.bounds.length)
    (h0 : i0.values.length = c.bounds.length) (h1 : i1.values.length = c.bounds.length) :
    Within c.bounds (challenger c d t b i0 i1) := by
  unfold challenger
  apply C04_limit_within _ _ hgb
  unfold crossover crossoverWith
  rw [crossover_step_length, donor_length b i0 i1 d.F _ hb h0 h1]

/-- Example settings: two parameters, one constraint (the first is not above the second plus 4). -/
def cfg : Config where
  bounds := [⟨0, 10⟩, ⟨-1, 1⟩]
  names := ["a", "b"]
  constraints := [fun p => match p "a", p "b" with
    | some a, some b => decide (a ≤ b + 4)
    | _, _ => false]
  CR := 1 / 2
  xSSE := false

/-- Example individual. -/
def ind (s : ℚ) (vs : List ℚ) : Individual := ⟨some (.fin s), vs⟩

/-- Non-vacuity: the second parameter comes from the target, the first from the donor (reflected). -/
example : GoodBounds cfg.bounds ∧ Within cfg.bounds [3, 1 / 2] ∧
    challenger cfg ⟨1 / 2, 0, fun _ => 3 / 4⟩ (ind 5 [3, 1 / 2]) (ind 4 [9, 0]) (ind 7 [6, 1])
      (ind 8 [2, 0]) = [9, 1 / 2] := by
  refine ⟨?_, ?_, by decide +kernel⟩
  · intro b hb; simp [cfg] at hb; rcases hb with rfl | rfl <;> norm_num
  · simp [Within, cfg]; norm_num

/-! ## C30 -/

/-- Specification: a legal individual lies within the bounds and every constraint accepts its named
values. -/
def Legal (c : Config) (i : Individual) : Prop :=
  Within c.bounds i.values ∧ ∃ d, IsParamsOf c.names i.values d ∧ ∀ f ∈ c.constraints, f d = true

/-- A challenger that gets evaluated is legal. -/
theorem trial_legal (c : Config) (hgb : GoodBounds c.bounds) (hnd : c.names.Nodup)
    (hnl : c.names.length = c.bounds.length) (d : Draws)
    (eval : List ℚ → Option PyFloat → Individual.EvalResult) (t b i0 i1 i : Individual)
    (hb : b.values.length = c.bounds.length)
    (h0 : i0.values.length = c.bounds.length) (h1 : i1.values.length = c.bounds.length)
    (h : trial c d eval t b i0 i1 = .evaluated i) : Legal c i := by
  unfold trial at h
  simp only at h
  generalize (if c.xSSE = true then some t.SSE else none) = x at h
  split at h
  · rename_i hp
    split at h
    · injection h with h
      have hv : i.values = challenger c d t b i0 i1 := by
        rw [← h]; unfold Individual.finishEval; split <;> rfl
      refine ⟨hv ▸ C24_within c hgb d t b i0 i1 hb h0 h1, ?_⟩
      rw [hv]
      exact (C07_passes_iff c.names hnd c.constraints _ (by
        rw [challenger_length c d t b i0 i1 hb h0 h1, hnl])).1 hp
    · cases h
  · cases h

/-- C30: every member at every moment of every execution of a run is legal, if the initial members
are.  The population has `n` members. -/
theorem C30_members_stay_legal (c : Config) (hgb : GoodBounds c.bounds) (hnd : c.names.Nodup)
    (hnl : c.names.length = c.bounds.length) (n : ℕ) (idx : ℕ → ℕ × ℕ × ℕ × ℕ)
    (hidx : ∀ m, (idx m).1 < n ∧ (idx m).2.1 < n ∧ (idx m).2.2.1 < n ∧ (idx m).2.2.2 < n)
    (draws : ℕ → Draws) (eval : ℕ → List ℚ → Option PyFloat → Individual.EvalResult)
    (pop₀ : ℕ → Individual) (h₀ : ∀ k, k < n → Legal c (pop₀ k)) (s : Sys Individual)
    (hs : Reachable (params c idx draws eval) pop₀ s) (k : ℕ) (hk : k < n) : Legal c (s.pop k) := by
  obtain ⟨acts, ha⟩ := hs
  let P := params c idx draws eval
  have key := run_induction (P := P)
    (fun s => (∀ k, k < n → Legal c (s.pop k)) ∧
      ∀ j t i, s.phase j = .evaluating t (.evaluated i) → Legal c i) ?_ acts (init pop₀) s
      ⟨h₀, by simp [init]⟩ ha
  · exact key.1 k hk
  · intro s a s' ⟨hp, he⟩ hst
    cases a with
    | issue =>
      simp only [step] at hst
      split at hst <;>
      · injection hst with hst; subst hst
        refine ⟨hp, ?_⟩
        intro j t i hj
        simp only [Function.update_apply] at hj
        split at hj
        · cases hj
        · exact he j t i hj
    | grant j =>
      simp only [step] at hst
      split at hst
      · split at hst
        · split at hst
          · split at hst
            · injection hst with hst; subst hst
              refine ⟨hp, ?_⟩
              intro j' t i hj
              simp only [Function.update_apply] at hj
              split at hj
              · cases hj
              · exact he j' t i hj
            · injection hst with hst; subst hst
              refine ⟨hp, ?_⟩
              intro j' t i hj
              simp only [Function.update_apply] at hj
              split at hj
              · injection hj with h1 h2
                obtain ⟨a1, a2, a3, a4⟩ := hidx j
                have hlen : ∀ m, m < n → (s.pop m).values.length = c.bounds.length :=
                  fun m hm => ((hp m hm).1.length_eq).symm
                exact trial_legal c hgb hnd hnl (draws j) (eval j) _ _ _ _ i (hlen _ a2) (hlen _ a3)
                  (hlen _ a4) h2
              · exact he j' t i hj
          · injection hst with hst; subst hst
            refine ⟨hp, ?_⟩
            intro j' t i hj
            simp only [Function.update_apply] at hj
            split at hj
            · cases hj
            · exact he j' t i hj
        · cases hst
      · cases hst
    | finish j =>
      simp only [step] at hst
      split at hst
      · rename_i target out hph
        split at hst
        · split at hst
          · injection hst with hst; subst hst
            refine ⟨?_, ?_⟩
            · intro k hk
              simp only [Function.update_apply]
              split
              · exact he j _ _ hph
              · exact hp k hk
            · intro j' t i hj
              simp only [Function.update_apply] at hj
              split at hj
              · cases hj
              · exact he j' t i hj
          · split at hst <;>
            · injection hst with hst; subst hst
              refine ⟨hp, ?_⟩
              intro j' t i hj
              simp only [Function.update_apply] at hj
              split at hj
              · cases hj
              · exact he j' t i hj
        · injection hst with hst; subst hst
          refine ⟨hp, ?_⟩
          intro j' t i hj
          simp only [Function.update_apply] at hj
          split at hj
          · cases hj
          · exact he j' t i hj
      · cases hst
    | recorded j =>
      simp only [step] at hst
      split at hst
      · injection hst with hst; subst hst
        refine ⟨hp, ?_⟩
        intro j' t i hj
        simp only [Function.update_apply] at hj
        split at hj
        · cases hj
        · exact he j' t i hj
      · cases hst
    | shutdown =>
      simp only [step] at hst
      injection hst with hst; subst hst
      exact ⟨hp, he⟩

/-- Example run: four members, challenge 0 on member 0, whose challenger wins. -/
def demoParams : Params Individual :=
  params cfg (fun _ => (0, 1, 2, 3)) (fun _ => ⟨1 / 2, 0, fun _ => 3 / 4⟩)
    (fun _ _ _ => .done (some (.fin 1)))

/-- Example members. -/
def demoPop : ℕ → Individual := fun k =>
  [ind 5 [3, 1 / 2], ind 4 [2, 0], ind 7 [3, 1], ind 8 [2, 0]].getD k (ind 9 [0, 0])

/-- Non-vacuity: the run replaces member 0 by a legal challenger. -/
example : (run demoParams (init demoPop) [.issue, .grant 0, .finish 0]).map (fun s => s.pop 0) =
    some (ind 1 [5 / 2, 1 / 2]) := by decide +kernel

/-- Non-vacuity: the example members are legal. -/
example : Legal cfg (demoPop 0) ∧ cfg.names.Nodup := by
  refine ⟨⟨?_, ?_⟩, by decide⟩
  · simp [Within, cfg, demoPop, ind]; norm_num
  · have := (C07_passes_iff cfg.names (by decide) cfg.constraints (demoPop 0).values (by decide +kernel)).1
      (by decide +kernel)
    exact this

/-! ## C31 -/

/-- C31, for infinite, unset and fatal scores: a challenger with a finite score wins. -/
theorem C31_finite_beats_infinite_partial (c t : Individual) (q : ℚ) (hq : 0 ≤ q)
    (hc : c.stored = some (.fin q))
    (ht : t.stored = none ∨ t.stored = some .pinf ∨ ∃ x, t.stored = some x ∧ x.lt (.fin 0) = true) :
    c.lt t = true := by
  have hcf : c.toFloat = .fin q := by
    simp [Individual.toFloat, Individual.SSE, hc, PyFloat.lt, PyFloat.zero, not_lt.2 hq]
  have htf : t.toFloat = .pinf := by
    rcases ht with ht | ht | ⟨x, ht, hx⟩
    · simp [Individual.toFloat, Individual.SSE, ht, PyFloat.lt, PyFloat.zero]
    · simp [Individual.toFloat, Individual.SSE, ht, PyFloat.lt, PyFloat.zero]
    · simp [Individual.toFloat, Individual.SSE, ht, PyFloat.zero, hx]
  simp [Individual.lt, hcf, htf, PyFloat.lt]

example := C31_finite_beats_infinite_partial (ind 5 [3, 1 / 2]) ⟨some .pinf, [1, 0]⟩ 5 (by norm_num) rfl (.inr (.inl rfl))

example := C31_finite_beats_infinite_partial (ind 5 [3, 1 / 2]) ⟨some (.fin (-1)), [1, 0]⟩ 5 (by norm_num) rfl
  (.inr (.inr ⟨_, rfl, by decide +kernel⟩))

/-- C31, negation: no challenger ever beats a target whose score is not a number. -/
theorem C31_nan_never_beaten (c t : Individual) (ht : t.stored = some .nan) : c.lt t = false := by
  have htf : t.toFloat = .nan := by
    simp [Individual.toFloat, Individual.SSE, ht, PyFloat.lt]
  unfold Individual.lt
  rw [htf]
  cases c.toFloat <;> rfl

example := C31_nan_never_beaten (ind 5 [3, 1 / 2]) ⟨some .nan, [3, 1 / 2]⟩ rfl

/-- C31, negation for whole runs: a member whose score is not a number stays for ever. -/
theorem C31_nan_member_stays (c : Config) (idx : ℕ → ℕ × ℕ × ℕ × ℕ) (draws : ℕ → Draws)
    (eval : ℕ → List ℚ → Option PyFloat → Individual.EvalResult)
    (hd : Distinct (params c idx draws eval))
    (pop₀ : ℕ → Individual) (k : ℕ) (hk : (pop₀ k).stored = some .nan) (s : Sys Individual)
    (hs : Reachable (params c idx draws eval) pop₀ s) : s.pop k = pop₀ k := by
  obtain ⟨acts, ha⟩ := hs
  have h := C29_run_improves (params c idx draws eval) hd
    (fun a b c hab hbc => PyFloat.lt_trans hab hbc) pop₀ (init pop₀) s ⟨[], rfl⟩ acts ha k
  rcases h with h | h
  · exact h
  · have := C31_nan_never_beaten (s.pop k) (pop₀ k) hk
    rw [show ((params c idx draws eval).lt (s.pop k) ((init pop₀).pop k)) = _ from this] at h
    cases h

/-- Non-vacuity: a NaN member that is challenged by a better score and kept. -/
example : (run demoParams (init fun k => if k = 0 then ⟨some .nan, [3, 1 / 2]⟩ else demoPop k)
    [.issue, .grant 0, .finish 0]).map (fun s => (s.pop 0).stored) = some (some .nan) := by
  decide +kernel

theorem cfg_good : GoodBounds cfg.bounds := by
  intro b hb; simp [cfg] at hb; rcases hb with rfl | rfl <;> norm_num

example := C24_parameter_form cfg cfg_good ⟨1 / 2, 0, fun _ => 3 / 4⟩ (ind 5 [3, 1 / 2]) (ind 4 [9, 0])
  (ind 7 [6, 1]) (ind 8 [2, 0]) (by simp [Within, cfg, ind]; norm_num) rfl rfl rfl 1 (by decide)

example := C24_from_donor cfg cfg_good ⟨1 / 2, 0, fun _ => 3 / 4⟩ (ind 5 [3, 1 / 2]) (ind 4 [9, 0])
  (ind 7 [6, 1]) (ind 8 [2, 0]) rfl rfl rfl 0 (by decide) (.inl rfl)

example := C24_from_target cfg ⟨1 / 2, 0, fun _ => 3 / 4⟩ (ind 5 [3, 1 / 2]) (ind 4 [9, 0])
  (ind 7 [6, 1]) (ind 8 [2, 0]) (by simp [Within, cfg, ind]; norm_num) rfl rfl rfl 1 (by decide) (by decide)
  (by norm_num [cfg])

example := C24_donor_share cfg cfg_good ⟨1 / 2, 0, fun _ => 3 / 4⟩ (ind 5 [3, 1 / 2]) (ind 4 [9, 0])
  (ind 7 [6, 1]) (ind 8 [2, 0]) rfl rfl rfl (by decide) (fun _ => by norm_num)

end Challenge
end Ade
