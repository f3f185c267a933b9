import Verif.Lemmas.Cases
import Verif.Props.Challenge

/-!
# Property C100: where the search can go
-/

set_option autoImplicit false

namespace Ade
namespace DESystem

variable {I : Type}

/-- What holds for the initial members and for each challenger made of individuals for which it holds, holds for all
members and all challengers at any time. -/
theorem run_invariant (P : Params I) (n : ℕ)
    (hidx : ∀ m, (P.req m).kt < n ∧ (P.req m).kb < n ∧ (P.req m).k0 < n ∧ (P.req m).k1 < n) (Q : I → Prop)
    (hQ : ∀ j t b x y i, Q t → Q b → Q x → Q y → (P.req j).trial t b x y = .evaluated i → Q i)
    (pop₀ : ℕ → I) (h₀ : ∀ k, k < n → Q (pop₀ k)) (s : Sys I) (hs : Reachable P pop₀ s) :
    (∀ k, k < n → Q (s.pop k)) ∧ ∀ j t i, s.phase j = .evaluating t (.evaluated i) → Q i := by
  obtain ⟨acts, ha⟩ := hs
  have key := run_induction (P := P)
    (fun s => (∀ k, k < n → Q (s.pop k)) ∧ ∀ j t i, s.phase j = .evaluating t (.evaluated i) → Q i) ?_ acts (init pop₀) s
      ⟨h₀, by simp [init]⟩ ha
  · exact key
  · intro s a s' ⟨hp, he⟩ hst
    have old : ∀ (j : ℕ) (ph : Phase I), (∀ t i, ph = .evaluating t (.evaluated i) → Q i) →
        ∀ j' t i, Function.update s.phase j ph j' = .evaluating t (.evaluated i) → Q i := by
      intro j ph hph j' t i hj
      simp only [Function.update_apply] at hj
      split at hj
      · exact hph t i hj
      · exact he j' t i hj
    have done : ∀ (t : I) (i : I), (Phase.done : Phase I) = .evaluating t (.evaluated i) → Q i := by intro t i h; cases h
    cases a with
    | issue =>
      simp only [step] at hst
      split at hst
      · injection hst with hst; subst hst
        exact ⟨hp, old _ _ (by intro t i h; cases h)⟩
      · injection hst with hst; subst hst
        exact ⟨hp, old _ _ done⟩
    | grant j =>
      simp only [step] at hst
      split at hst
      · split at hst
        · split at hst
          · split at hst
            · injection hst with hst; subst hst
              exact ⟨hp, old _ _ done⟩
            · injection hst with hst; subst hst
              refine ⟨hp, old _ _ ?_⟩
              intro t i hj
              injection hj with h1 h2
              obtain ⟨a1, a2, a3, a4⟩ := hidx j
              exact hQ j _ _ _ _ i (hp _ a1) (hp _ a2) (hp _ a3) (hp _ a4) h2
          · injection hst with hst; subst hst
            exact ⟨hp, old _ _ done⟩
        · cases hst
      · cases hst
    | finish j =>
      simp only [step] at hst
      split at hst
      · rename_i target out hph
        split at hst
        · split at hst
          · injection hst with hst; subst hst
            refine ⟨?_, old _ _ done⟩
            intro k hk
            simp only [Function.update_apply]
            split
            · exact he j _ _ hph
            · exact hp k hk
          · split at hst
            · injection hst with hst; subst hst
              exact ⟨hp, old _ _ (by intro t i h; cases h)⟩
            · injection hst with hst; subst hst
              exact ⟨hp, old _ _ done⟩
        · injection hst with hst; subst hst
          exact ⟨hp, old _ _ done⟩
      · cases hst
    | recorded j =>
      simp only [step] at hst
      split at hst
      · injection hst with hst; subst hst
        exact ⟨hp, old _ _ done⟩
      · cases hst
    | shutdown =>
      simp only [step] at hst
      injection hst with hst; subst hst
      exact ⟨hp, he⟩

/-- The same for the members. -/
theorem member_invariant (P : Params I) (n : ℕ)
    (hidx : ∀ m, (P.req m).kt < n ∧ (P.req m).kb < n ∧ (P.req m).k0 < n ∧ (P.req m).k1 < n) (Q : I → Prop)
    (hQ : ∀ j t b x y i, Q t → Q b → Q x → Q y → (P.req j).trial t b x y = .evaluated i → Q i)
    (pop₀ : ℕ → I) (h₀ : ∀ k, k < n → Q (pop₀ k)) (s : Sys I) (hs : Reachable P pop₀ s) (k : ℕ) (hk : k < n) :
    Q (s.pop k) :=
  (run_invariant P n hidx Q hQ pop₀ h₀ s hs).1 k hk

end DESystem

namespace Challenge

open DESystem ParamManager

/-- An evaluated challenger has the challenger's values. -/
theorem trial_values (c : Config) (d : Draws) (eval : List ℚ → Option PyFloat → Individual.EvalResult)
    (t b i0 i1 i : Individual) (h : trial c d eval t b i0 i1 = .evaluated i) :
    i.values = challenger c d t b i0 i1 := by
  unfold trial at h
  simp only at h
  split at h
  · split at h <;> split at h
    · injection h with h
      rw [← h]; unfold Individual.finishEval; split <;> rfl
    · cases h
    · injection h with h
      rw [← h]; unfold Individual.finishEval; split <;> rfl
    · cases h
  · cases h

/-- C100: if all members agree on the value of a parameter, every later member has that value: the search has settled it
for good. -/
theorem C100_settled (c : Config) (hgb : GoodBounds c.bounds) (n : ℕ) (idx : ℕ → ℕ × ℕ × ℕ × ℕ)
    (hidx : ∀ m, (idx m).1 < n ∧ (idx m).2.1 < n ∧ (idx m).2.2.1 < n ∧ (idx m).2.2.2 < n)
    (draws : ℕ → Draws) (eval : ℕ → List ℚ → Option PyFloat → Individual.EvalResult)
    (pop₀ : ℕ → Individual) (hw : ∀ m, m < n → Within c.bounds (pop₀ m).values) (k : ℕ) (hk : k < c.bounds.length) (x : ℚ)
    (h₀ : ∀ m, m < n → (pop₀ m).values[k]? = some x) (s : Sys Individual)
    (hs : Reachable (params c idx draws eval) pop₀ s) (m : ℕ) (hm : m < n) : (s.pop m).values[k]? = some x := by
  refine (member_invariant (params c idx draws eval) n hidx
    (fun i => Within c.bounds i.values ∧ i.values[k]? = some x) ?_ pop₀ (fun m hm => ⟨hw m hm, h₀ m hm⟩) s hs m hm).2
  intro j t b i0 i1 i ⟨t1, t2⟩ ⟨b1, b2⟩ ⟨x1, x2⟩ ⟨y1, y2⟩ hi
  have hv := trial_values c (draws j) (eval j) t b i0 i1 i hi
  rw [hv]
  have lb := b1.length_eq.symm
  have lx := x1.length_eq.symm
  have ly := y1.length_eq.symm
  refine ⟨C24_within c hgb (draws j) t b i0 i1 lb lx ly, ?_⟩
  obtain ⟨w, h1, h2⟩ := C24_parameter_form c hgb (draws j) t b i0 i1 t1 lb lx ly k hk
  rw [h1]
  rcases h2 with h2 | h2
  · rw [h2, t2]
  · have hin : (c.bounds[k]).lo ≤ x ∧ x ≤ (c.bounds[k]).hi := by
      have := (List.forall₂_iff_get.1 t1).2 k hk (by rw [← t1.length_eq]; exact hk)
      obtain ⟨hk', e⟩ := List.getElem?_eq_some_iff.1 t2
      simp only [List.get_eq_getElem, e] at this
      exact this
    have e : b.values.getD k 0 + (draws j).F * (i0.values.getD k 0 - i1.values.getD k 0) = x := by
      simp only [List.getD_eq_getElem?_getD, b2, x2, y2, Option.getD_some]
      ring
    rw [e] at h2
    cases h2 with
    | inside => rfl
    | above a1 a2 => linarith
    | below a1 a2 => linarith
    | farBelow a1 a2 => linarith

/-- C100: hence when all members are alike, all later members have those values: nothing new is ever tried. -/
theorem C100_all_alike (c : Config) (hgb : GoodBounds c.bounds) (n : ℕ) (idx : ℕ → ℕ × ℕ × ℕ × ℕ)
    (hidx : ∀ m, (idx m).1 < n ∧ (idx m).2.1 < n ∧ (idx m).2.2.1 < n ∧ (idx m).2.2.2 < n)
    (draws : ℕ → Draws) (eval : ℕ → List ℚ → Option PyFloat → Individual.EvalResult)
    (pop₀ : ℕ → Individual) (v : List ℚ) (hv : Within c.bounds v) (h₀ : ∀ m, m < n → (pop₀ m).values = v)
    (s : Sys Individual) (hs : Reachable (params c idx draws eval) pop₀ s) (m : ℕ) (hm : m < n) :
    (s.pop m).values = v := by
  have hlen : (s.pop m).values.length = c.bounds.length :=
    (member_invariant (params c idx draws eval) n hidx (fun i => Within c.bounds i.values) (by
      intro j t b i0 i1 i _ b1 x1 y1 hi
      rw [trial_values c (draws j) (eval j) t b i0 i1 i hi]
      exact C24_within c hgb (draws j) t b i0 i1 b1.length_eq.symm x1.length_eq.symm y1.length_eq.symm)
      pop₀ (fun m hm => by rw [h₀ m hm]; exact hv) s hs m hm).length_eq.symm
  apply List.ext_getElem?
  intro k
  by_cases hk : k < c.bounds.length
  · have hkv : k < v.length := by rw [← hv.length_eq]; exact hk
    rw [List.getElem?_eq_getElem hkv]
    exact C100_settled c hgb n idx hidx draws eval pop₀ (fun m hm => by rw [h₀ m hm]; exact hv) k hk v[k]
      (fun m hm => by rw [h₀ m hm]; exact List.getElem?_eq_getElem hkv) s hs m hm
  · rw [List.getElem?_eq_none (by omega), List.getElem?_eq_none (by rw [← hv.length_eq]; omega)]

/-- C100: a challenger's parameter goes beyond the range of the values it is made from by at most `F` times the width of
that range, also when it is reflected at a bound. -/
theorem C100_reach (c : Config) (hgb : GoodBounds c.bounds) (d : Draws) (hF : 0 ≤ d.F) (t b i0 i1 : Individual)
    (ht : Within c.bounds t.values) (hb : Within c.bounds b.values) (h0 : Within c.bounds i0.values)
    (h1 : Within c.bounds i1.values) (k : ℕ) (p q : ℚ)
    (hr : ∀ i ∈ [t, b, i0, i1], ∀ v, i.values[k]? = some v → p ≤ v ∧ v ≤ q) (w : ℚ)
    (hw : (challenger c d t b i0 i1)[k]? = some w) :
    p - d.F * (q - p) ≤ w ∧ w ≤ q + d.F * (q - p) := by
  have lb := hb.length_eq.symm
  have l0 := h0.length_eq.symm
  have l1 := h1.length_eq.symm
  have hk : k < c.bounds.length := by
    have hwi := C24_within c hgb d t b i0 i1 lb l0 l1
    have := (List.getElem?_eq_some_iff.1 hw).1
    rw [← hwi.length_eq] at this
    exact this
  have val : ∀ i, Within c.bounds i.values → i ∈ [t, b, i0, i1] →
      ∃ v, i.values[k]? = some v ∧ p ≤ v ∧ v ≤ q ∧ (c.bounds[k]).lo ≤ v ∧ v ≤ (c.bounds[k]).hi := by
    intro i hi hm
    have hki : k < i.values.length := by rw [← hi.length_eq]; exact hk
    have := (List.forall₂_iff_get.1 hi).2 k hk hki
    have hv := hr i hm _ (List.getElem?_eq_getElem hki)
    exact ⟨_, List.getElem?_eq_getElem hki, hv.1, hv.2, this.1, this.2⟩
  obtain ⟨vt, et, t1, t2, t3, t4⟩ := val t ht (by simp)
  obtain ⟨vb, eb, b1, b2, b3, b4⟩ := val b hb (by simp)
  obtain ⟨v0, e0, x1, x2, x3, x4⟩ := val i0 h0 (by simp)
  obtain ⟨v1, e1, y1, y2, y3, y4⟩ := val i1 h1 (by simp)
  obtain ⟨w', e2, e3⟩ := C24_parameter_form c hgb d t b i0 i1 ht lb l0 l1 k hk
  obtain rfl : w = w' := by rw [hw] at e2; exact Option.some.inj e2
  have hpq : 0 ≤ d.F * (q - p) := mul_nonneg hF (by linarith)
  rcases e3 with e3 | e3
  · rw [et] at e3
    obtain rfl := Option.some.inj e3
    constructor <;> linarith
  · simp only [List.getD_eq_getElem?_getD, eb, e0, e1, Option.getD_some] at e3
    have g1 : d.F * (v0 - v1) ≤ d.F * (q - p) := mul_le_mul_of_nonneg_left (by linarith) hF
    have g2 : d.F * (v1 - v0) ≤ d.F * (q - p) := mul_le_mul_of_nonneg_left (by linarith) hF
    have g3 : d.F * (v1 - v0) = -(d.F * (v0 - v1)) := by ring
    cases e3 with
    | inside a1 a2 => constructor <;> linarith
    | above a1 a2 =>
      constructor
      · exact le_trans (by linarith) (le_max_right _ _)
      · exact max_le (by linarith) (by linarith)
    | below a1 a2 => constructor <;> linarith
    | farBelow a1 a2 =>
      constructor
      · exact le_trans (by linarith) (le_max_left _ _)
      · exact max_le (by linarith) (by linarith)

/-- Non-vacuity of C100_settled: a population that agrees on the second parameter; the run changes only the first. -/
example : (∀ m, m < 4 → ([ind 5 [3, 1 / 2], ind 4 [2, 1 / 2], ind 7 [3, 1 / 2], ind 8 [2, 1 / 2]].getD m
      (ind 9 [0, 0])).values[1]? = some (1 / 2)) ∧
    (run demoParams (init fun k => [ind 5 [3, 1 / 2], ind 4 [2, 1 / 2], ind 7 [3, 1 / 2], ind 8 [2, 1 / 2]].getD k
      (ind 9 [0, 0])) [.issue, .grant 0, .finish 0]).map (fun s => s.pop 0) = some (ind 1 [5 / 2, 1 / 2]) := by
  decide +kernel

/-- Non-vacuity of C100_reach: values between 1 and 3 give 5 for `F = 1`. -/
example : challenger cfg ⟨1, 0, fun _ => 3 / 4⟩ (ind 5 [2, 0]) (ind 4 [3, 0]) (ind 7 [3, 0]) (ind 8 [1, 0]) = [5, 0] := by
  decide +kernel

/-- Members that agree in the second parameter. -/
def settledPop : ℕ → Individual := fun k =>
  [ind 5 [3, 1 / 2], ind 4 [2, 1 / 2], ind 7 [3, 1 / 2], ind 8 [2, 1 / 2]].getD k (ind 9 [0, 0])

example := C100_settled cfg cfg_good 4 (fun _ => (0, 1, 2, 3)) (fun _ => by decide)
  (fun _ => ⟨1 / 2, 0, fun _ => 3 / 4⟩) (fun _ _ _ => .done (some (.fin 1))) settledPop
  (fun m hm => by
    obtain rfl | rfl | rfl | rfl : m = 0 ∨ m = 1 ∨ m = 2 ∨ m = 3 := by omega
    all_goals simp [Within, cfg, ind, settledPop]; norm_num)
  1 (by decide) (1 / 2) (by decide +kernel) _
  ⟨[.issue, .grant 0, .finish 0], eq_get (by decide +kernel)⟩ 0 (by decide)

example := C100_all_alike cfg cfg_good 4 (fun _ => (0, 1, 2, 3)) (fun _ => by decide)
  (fun _ => ⟨1 / 2, 0, fun _ => 3 / 4⟩) (fun _ _ _ => .done (some (.fin 1))) (fun k => ind (k + 3) [3, 1 / 2])
  [3, 1 / 2] (by simp [Within, cfg]; norm_num) (fun _ _ => rfl) _
  ⟨[.issue, .grant 0, .finish 0], eq_get (by decide +kernel)⟩ 0 (by decide)

end Challenge
end Ade
