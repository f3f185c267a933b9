import Verif.Model.Population
import Verif.Spec.Ranking
import Verif.Lemmas.PyFloat
import Mathlib.Data.List.Induction

/-! Helper lemmas about population rankings and their cache. -/

set_option autoImplicit false

namespace Ade

theorem RanksBefore.trans {x y z : PyFloat} (h₁ : RanksBefore x y) (h₂ : RanksBefore y z) :
    RanksBefore x z := by
  unfold RanksBefore at *
  rcases h₂ with h | ⟨hy, hz⟩
  · exact .inl h
  · rcases h₁ with h | ⟨hx, hyx⟩
    · rw [h] at hy; cases hy
    · refine .inr ⟨hx, PyFloat.lt_false_trans ?_ hyx hz⟩
      rintro rfl; cases hy

theorem RanksBefore.total (x y : PyFloat) : RanksBefore x y ∨ RanksBefore y x := by
  unfold RanksBefore
  cases hx : x.isNaN <;> cases hy : y.isNaN <;> simp
  by_cases h : y.lt x = true
  · exact .inr (PyFloat.lt_asymm h)
  · exact .inl (by simpa using h)

theorem RanksBefore.refl (x : PyFloat) : RanksBefore x x := by
  rcases RanksBefore.total x x with h | h <;> exact h

theorem RanksBefore.not_lt {x y : PyFloat} (h : RanksBefore x y) : y.lt x = false := by
  rcases h with h | ⟨_, h⟩
  · cases y <;> simp_all [PyFloat.isNaN, PyFloat.lt]
  · exact h

namespace Population

theorem stableSort_sorts : Sorts stableSort := by
  intro xs
  refine ⟨List.perm_insertionSort _ _, ?_⟩
  let r : ℕ → ℕ → Prop := fun a b =>
    (xs.getD b .nan).isNaN = true ∨
      ((xs.getD a .nan).isNaN = false ∧ (xs.getD b .nan).lt (xs.getD a .nan) = false)
  have : Std.Total r := ⟨fun a b => RanksBefore.total _ _⟩
  have : IsTrans ℕ r := ⟨fun a b c h1 h2 => RanksBefore.trans h1 h2⟩
  exact List.pairwise_insertionSort r (List.range xs.length)

/-- What the caches may hold. -/
structure CacheOk (sort : List PyFloat → List ℕ) (p : Pop) : Prop where
  ks : ∀ k, p.ks = some k → k = sort (scores p) ∧ p.members ≠ []
  sorted : ∀ l, p.sorted = some l → l = pick p (sort (scores p))
  locks : p.locks = p.members.length

theorem cacheOk_invalidate {sort : List PyFloat → List ℕ} {p : Pop} (h : p.locks = p.members.length) :
    CacheOk sort (invalidate p) :=
  ⟨by simp [invalidate], by simp [invalidate], h⟩

theorem cacheOk_empty (sort : List PyFloat → List ℕ) : CacheOk sort empty :=
  ⟨by simp [empty], by simp [empty], rfl⟩

@[simp] theorem readKS_members (sort : List PyFloat → List ℕ) (p : Pop) :
    (readKS sort p).1.members = p.members := by
  unfold readKS; split <;> try rfl
  split <;> rfl

@[simp] theorem readKS_locks (sort : List PyFloat → List ℕ) (p : Pop) :
    (readKS sort p).1.locks = p.locks := by
  unfold readKS; split <;> try rfl
  split <;> rfl

theorem readKS_value {sort : List PyFloat → List ℕ} {p : Pop} (h : CacheOk sort p) :
    (readKS sort p).2 = if p.members = [] then none else some (sort (scores p)) := by
  unfold readKS
  split
  · rename_i k hk
    obtain ⟨h1, h2⟩ := h.ks k hk
    simp [h2, h1]
  · split
    · rename_i he; simp [List.isEmpty_iff.1 he]
    · rename_i he; simp [List.isEmpty_iff] at he; simp [he]

theorem readKS_ok {sort : List PyFloat → List ℕ} {p : Pop} (h : CacheOk sort p) :
    CacheOk sort (readKS sort p).1 := by
  unfold readKS
  split
  · exact h
  · split
    · exact h
    · rename_i he
      simp [List.isEmpty_iff] at he
      exact ⟨by intro k hk; simp at hk; exact ⟨hk.symm, he⟩, h.sorted, h.locks⟩

theorem readSorted_ok {sort : List PyFloat → List ℕ} {p : Pop} (h : CacheOk sort p) :
    CacheOk sort (readSorted sort p).1 := by
  unfold readSorted
  split
  · split
    · exact h
    · rename_i he
      simp [List.isEmpty_iff] at he
      have h1 := readKS_ok h
      have h2 := readKS_value h
      refine ⟨?_, ?_, h1.locks⟩
      · intro k hk; exact h1.ks k hk
      · intro l hl
        simp only [Option.some.injEq] at hl
        subst hl
        simp only [h2, he, if_false, Option.getD_some]
        simp [pick, scores]
  · exact h

theorem best_ok {sort : List PyFloat → List ℕ} {p : Pop} (h : CacheOk sort p) :
    CacheOk sort (best sort p).1 := by
  unfold best readKBest
  split
  · exact h
  · exact readKS_ok h

theorem assign_ok {sort : List PyFloat → List ℕ} {p p' : Pop} {k : ℕ} {i : Individual}
    (hl : p.locks = p.members.length) (h : assign p k i = some p') : CacheOk sort p' := by
  unfold assign at h
  split at h
  · injection h with h; subst h
    exact cacheOk_invalidate (by simp [hl])
  · cases h

theorem foldl_append (js : List Individual) (p : Pop) :
    (js.foldl append p).members = p.members ++ js ∧
      (js.foldl append p).locks = p.locks + js.length := by
  induction js generalizing p with
  | nil => simp
  | cons j js ih =>
    obtain ⟨h1, h2⟩ := ih (append p j)
    simp only [List.foldl_cons, h1, h2]
    simp [append]; omega

theorem step_ok {sort : List PyFloat → List ℕ} {p : Pop} (h : CacheOk sort p) (o : Op) :
    CacheOk sort (step sort p o) := by
  cases o with
  | assign k i =>
    simp only [step]
    cases ha : assign p k i with
    | none => exact h
    | some p' => exact assign_ok h.locks ha
  | push i =>
    simp only [step]
    cases hp : push sort p i with
    | none => exact readKS_ok h
    | some p' =>
      simp only [push] at hp
      split at hp
      · cases hp
      · rename_i k _
        simp only [Option.map_eq_some_iff] at hp
        obtain ⟨q, hq, rfl⟩ := hp
        have : CacheOk sort q := assign_ok (readKS_ok h).locks hq
        exact cacheOk_invalidate this.locks
  | clear => exact cacheOk_empty sort
  | refill js =>
    apply cacheOk_invalidate
    have := foldl_append js empty
    rw [this.1, this.2]; simp [empty]
  | blacklist k =>
    simp only [step]
    cases hb : blacklist p k with
    | none => exact h
    | some p' =>
      unfold blacklist at hb
      split at hb
      · cases hb
      · injection hb with hb; subst hb
        exact cacheOk_invalidate (by simp [h.locks])
  | readKS => exact readKS_ok h
  | readSorted => exact readSorted_ok h
  | readBest => exact best_ok h

theorem run_ok {sort : List PyFloat → List ℕ} (ops : List Op) {p : Pop} (h : CacheOk sort p) :
    CacheOk sort (run sort p ops) := by
  induction ops generalizing p with
  | nil => exact h
  | cons o os ih => exact ih (step_ok h o)

theorem scores_getD (p : Pop) (k : ℕ) (hk : k < p.members.length) :
    (scores p).getD k .nan = p.members[k].toFloat := by
  simp [scores, List.getD, hk]

theorem filterMap_range_getElem? {α : Type} (l : List α) :
    (List.range l.length).filterMap (fun k => l[k]?) = l := by
  induction l using List.reverseRecOn with
  | nil => rfl
  | append_singleton l a ih =>
    rw [List.length_append, List.length_singleton, List.range_succ, List.filterMap_append]
    have : (List.range l.length).filterMap (fun k => (l ++ [a])[k]?) = l := by
      rw [show (List.range l.length).filterMap (fun k => (l ++ [a])[k]?) =
        (List.range l.length).filterMap (fun k => l[k]?) from ?_, ih]
      apply List.filterMap_congr
      intro k hk
      rw [List.getElem?_append_left (List.mem_range.1 hk)]
    rw [this]; simp

theorem pick_perm {p : Pop} {ks : List ℕ} (h : ks.Perm (List.range p.members.length)) :
    (pick p ks).Perm p.members :=
  (h.filterMap _).trans (List.Perm.of_eq (filterMap_range_getElem? _))

end Population
end Ade
