import Verif.Lemmas.Cases
import Verif.Lemmas.Population

/-!
# Properties C14, C15, C16: population size, rankings, best member, push

Theorems quantify over every sorting function meeting the contract `Sorts` of `np.argsort`, so over
every order of equal scores.
-/

set_option autoImplicit false

namespace Ade
namespace Population

/-! ## C14 -/

/-- C14: the size is the clamped product. -/
theorem C14_size (m : ℤ) (hm : m ≠ 0) (Nd : ℕ) :
    (m * Nd ≤ 20 → sizeOf (some m) Nd = 20) ∧
    (20 ≤ m * Nd → m * Nd ≤ 500 → sizeOf (some m) Nd = m * Nd) ∧
    (500 ≤ m * Nd → sizeOf (some m) Nd = 500) := by
  simp only [sizeOf, hm, if_false]
  refine ⟨?_, ?_, ?_⟩ <;> intros <;> omega

/-- C14: without a multiplier, ten individuals per parameter are used. -/
theorem C14_size_default (Nd : ℕ) :
    sizeOf none Nd = sizeOf (some 10) Nd ∧ sizeOf (some 0) Nd = sizeOf (some 10) Nd := by
  simp [sizeOf]

/-- C14: always between 20 and 500. -/
theorem C14_size_bounds (ps : Option ℤ) (Nd : ℕ) : 20 ≤ sizeOf ps Nd ∧ sizeOf ps Nd ≤ 500 := by
  simp only [sizeOf]; omega

/-- C14: there is one lock per member after every sequence of operations. -/
theorem C14_one_lock_per_member (sort : List PyFloat → List ℕ) (ops : List Op) :
    (run sort empty ops).locks = (run sort empty ops).members.length :=
  (run_ok ops (cacheOk_empty sort)).locks

example : sizeOf (some 10) 3 = 30 ∧ sizeOf none 1 = 20 ∧ sizeOf (some 100) 7 = 500 := by decide

/-! ## C15 -/

/-- C15: the ranking read after any operations ranks the current members; there is none exactly when
there are no members. -/
theorem C15_ranking_current (sort : List PyFloat → List ℕ) (hs : Sorts sort) (ops : List Op) :
    let p := run sort empty ops
    (p.members = [] → (readKS sort p).2 = none) ∧
    (p.members ≠ [] → ∃ ks, (readKS sort p).2 = some ks ∧
      IsRanking (p.members.map Individual.toFloat) ks) := by
  intro p
  have h := readKS_value (run_ok ops (cacheOk_empty sort))
  refine ⟨fun he => by rw [h, if_pos he], fun he => ⟨_, by rw [show (readKS sort p).2 = _ from h, if_neg he]; rfl, hs _⟩⟩

/-- C15: what assignments and blacklisting do to the members: the one at the index is replaced or blacklisted, the others
stay; with an index that is too large both fail, and nothing changes. -/
theorem C15_members (sort : List PyFloat → List ℕ) (p : Pop) (k : ℕ) (i : Individual) :
    (assign p k i = none ↔ p.members.length ≤ k) ∧ (blacklist p k = none ↔ p.members.length ≤ k) ∧
      (step sort p (.assign k i)).members = p.members.set k i ∧
      (step sort p (.blacklist k)).members = p.members.modify k Individual.blacklist := by
  refine ⟨?_, ?_, ?_, ?_⟩
  · unfold assign; split_ifs with h <;> simp [h] ; omega
  · unfold blacklist
    cases h : p.members[k]? with
    | none => simpa using h
    | some j =>
      have := (List.getElem?_eq_some_iff.1 h).1
      simp only [reduceCtorEq, false_iff]
      omega
  · simp only [step, assign]
    split_ifs with h
    · rfl
    · rw [List.set_eq_of_length_le (by omega)]; rfl
  · simp only [step, blacklist]
    cases h : p.members[k]? with
    | none =>
      rw [List.modify_eq_self (by simpa using h)]
      rfl
    | some j =>
      obtain ⟨hk, rfl⟩ := List.getElem?_eq_some_iff.1 h
      rw [List.modify_eq_set_getElem?]
      simp [invalidate, h]

/-- C15: reading the ranking does not change the members. -/
theorem C15_reads_keep_members (sort : List PyFloat → List ℕ) (p : Pop) :
    (readKS sort p).1.members = p.members ∧ (readSorted sort p).1.members = p.members ∧
      (best sort p).1.members = p.members := by
  refine ⟨readKS_members _ _, ?_, ?_⟩
  · unfold readSorted; split
    · split
      · rfl
      · exact readKS_members _ _
    · rfl
  · unfold best readKBest; split
    · rfl
    · exact readKS_members _ _

/-- C15: the sorted member list is a permutation of the current members, in order of score. -/
theorem C15_sorted_current (sort : List PyFloat → List ℕ) (hs : Sorts sort) (ops : List Op) :
    let p := run sort empty ops
    p.members ≠ [] → ∃ l, (readSorted sort p).2 = some l ∧ l.Perm p.members ∧
      l.Pairwise fun i j => RanksBefore i.toFloat j.toFloat := by
  intro p he
  have hok : CacheOk sort p := run_ok ops (cacheOk_empty sort)
  have hval : (readKS sort p).2 = some (sort (scores p)) := by
    rw [readKS_value hok, if_neg he]
  have hr := hs (scores p)
  have hlen : (scores p).length = p.members.length := by simp [scores]
  have hv : (readSorted sort p).2 = some (pick p (sort (scores p))) := by
    unfold readSorted
    split
    · simp [he, hval]
    · rename_i hn
      simp only [Bool.or_eq_true, Option.isNone_iff_eq_none, not_or] at hn
      obtain ⟨l, hl⟩ := Option.ne_none_iff_exists'.1 hn.2
      rw [hl, hok.sorted l hl]
  refine ⟨_, hv, pick_perm (hlen ▸ hr.perm), ?_⟩
  unfold pick
  rw [List.pairwise_filterMap]
  refine hr.order.imp_of_mem ?_
  intro a b ha hb hab i hi j hj
  obtain ⟨ha', rfl⟩ := List.getElem?_eq_some_iff.1 hi
  obtain ⟨hb', rfl⟩ := List.getElem?_eq_some_iff.1 hj
  rwa [scores_getD p a ha', scores_getD p b hb'] at hab

/-- C15: the best member is a current member and no current member is better. -/
theorem C15_best_current (sort : List PyFloat → List ℕ) (hs : Sorts sort) (ops : List Op) :
    let p := run sort empty ops
    (p.members = [] → (best sort p).2 = none) ∧
    (p.members ≠ [] → ∃ b, (best sort p).2 = some b ∧ b ∈ p.members ∧
      ∀ i ∈ p.members, RanksBefore b.toFloat i.toFloat ∧ i.lt b = false) := by
  intro p
  have h := readKS_value (run_ok ops (cacheOk_empty sort))
  refine ⟨fun he => by unfold best; simp [he], fun he => ?_⟩
  have hr := hs (scores p)
  have hlen : (scores p).length = p.members.length := by simp [scores]
  have hval : (readKS sort p).2 = some (sort (scores p)) := by
    rw [show (readKS sort p).2 = _ from h, if_neg he]
  cases hk : sort (scores p) with
  | nil =>
    have := hr.perm.length_eq
    rw [hk] at this
    simp [hlen] at this
    exact absurd this.symm (by simpa using he)
  | cons k ks =>
    have hmem : k < p.members.length := by
      have : k ∈ List.range (scores p).length := hr.perm.mem_iff.1 (by simp [hk])
      simpa [hlen] using this
    refine ⟨p.members[k], ?_, List.getElem_mem _, ?_⟩
    · unfold best readKBest
      simp [he, hval, hk, hmem]
    · intro i hi
      obtain ⟨j, hj, rfl⟩ := List.mem_iff_getElem.1 hi
      have hR : RanksBefore (p.members[k]).toFloat (p.members[j]).toFloat := by
        have hjm : j ∈ sort (scores p) := hr.perm.mem_iff.2 (by simpa [hlen] using hj)
        rw [hk] at hjm
        rcases List.mem_cons.1 hjm with rfl | hjm
        · exact RanksBefore.refl _
        · have ho := hr.order
          rw [hk] at ho
          have := (List.pairwise_cons.1 ho).1 j hjm
          rwa [scores_getD p k hmem, scores_getD p j hj] at this
      exact ⟨hR, hR.not_lt⟩

/-- The three individuals used in the examples: scores 3, 1 and NaN. -/
def i3 : Individual := ⟨some (.fin 3), [0]⟩
/-- Score 1. -/
def i1 : Individual := ⟨some (.fin 1), [1]⟩
/-- Score NaN. -/
def iNaN : Individual := ⟨some .nan, [2]⟩

/-- Non-vacuity: a sorting function meeting the contract, and a run with cached rankings. -/
example : Sorts stableSort ∧
    (best stableSort (run stableSort empty
      [.refill [i3, iNaN, i1], .readBest, .push i3, .readSorted, .assign 2 i3, .readKS])).2 = some i3 :=
  ⟨stableSort_sorts, by decide +kernel⟩

/-- The code disagrees with C15 for a member whose score changes in place (ade/individual.py:123-128
does not invalidate the ranking): the best reported is the worst. -/
theorem C15_rescored_in_place_stale :
    ∃ p p', p = run stableSort empty [.refill [i3, i1], .readBest] ∧
      rescore p 1 (some (.fin 9)) = some p' ∧
      (best stableSort p').2 = some (i1.setSSE (some (.fin 9))) ∧
      (∃ i ∈ p'.members, i.lt (i1.setSSE (some (.fin 9))) = true) :=
  ⟨_, _, rfl, rfl, by decide +kernel, i3, by decide +kernel, by decide +kernel⟩

/-- The code disagrees with C15 during `setup`: a member added after a query (ade/population.py:794-801
does not invalidate the ranking) is not considered until `setup` is done. -/
theorem C15_query_during_setup_stale :
    ∃ p, p = append (best stableSort (append empty i3)).1 i1 ∧
      (best stableSort p).2 = some i3 ∧ i1 ∈ p.members ∧ i1.lt i3 = true ∧
      (best stableSort (initialise p)).2 = some i1 :=
  ⟨_, rfl, by decide +kernel, by decide +kernel, by decide +kernel, by decide +kernel⟩

/-! ## C16 -/

/-- C16: a push replaces exactly one member, one ranked last. -/
theorem C16_push_replaces_worst (sort : List PyFloat → List ℕ) (hs : Sorts sort) (ops : List Op)
    (i : Individual) :
    let p := run sort empty ops
    p.members ≠ [] → ∃ p' k, push sort p i = some p' ∧
      ∃ hk : k < p.members.length, p'.members = p.members.set k i ∧
        ∀ j ∈ p.members, RanksBefore j.toFloat (p.members[k]).toFloat ∧ (p.members[k]).lt j = false := by
  intro p he
  have hok : CacheOk sort p := run_ok ops (cacheOk_empty sort)
  have hval : (readKS sort p).2 = some (sort (scores p)) := by
    rw [readKS_value hok, if_neg he]
  have hr := hs (scores p)
  have hlen : (scores p).length = p.members.length := by simp [scores]
  have hne : sort (scores p) ≠ [] := by
    intro h0
    have := hr.perm.length_eq
    rw [h0] at this
    simp [hlen] at this
    exact absurd this.symm (by simpa using he)
  obtain ⟨ks, k, hk⟩ : ∃ ks k, sort (scores p) = ks ++ [k] :=
    ⟨_, _, (List.dropLast_append_getLast hne).symm⟩
  have hmem : k < p.members.length := by
    have : k ∈ List.range (scores p).length := hr.perm.mem_iff.1 (by simp [hk])
    simpa [hlen] using this
  refine ⟨invalidate (invalidate { (readKS sort p).1 with members := p.members.set k i }), k, ?_,
    hmem, rfl, ?_⟩
  · unfold push assign
    simp [hval, hk, hmem]
  · intro j hj
    obtain ⟨m, hm, rfl⟩ := List.mem_iff_getElem.1 hj
    have hR : RanksBefore (p.members[m]).toFloat (p.members[k]).toFloat := by
      have hjm : m ∈ sort (scores p) := hr.perm.mem_iff.2 (by simpa [hlen] using hm)
      rw [hk] at hjm
      rcases List.mem_append.1 hjm with hjm | hjm
      · have ho := hr.order
        rw [hk, List.pairwise_append] at ho
        have := ho.2.2 m hjm k (by simp)
        rwa [scores_getD p k hmem, scores_getD p m hm] at this
      · simp only [List.mem_singleton] at hjm; subst hjm; exact RanksBefore.refl _
    exact ⟨hR, hR.not_lt⟩

/-- C16: with at least two members, the best after a push is at least as good as before. -/
theorem C16_push_keeps_best (sort : List PyFloat → List ℕ) (hs : Sorts sort) (ops : List Op)
    (i b b' : Individual) (p' : Pop) (h2 : 2 ≤ (run sort empty ops).members.length)
    (hp : push sort (run sort empty ops) i = some p')
    (hb : (best sort (run sort empty ops)).2 = some b) (hb' : (best sort p').2 = some b') :
    RanksBefore b'.toFloat b.toFloat ∧ b.lt b' = false := by
  set p := run sort empty ops with hpdef
  have he : p.members ≠ [] := by intro h; simp [h] at h2
  obtain ⟨q, k, hq, hk, hset, hworst⟩ := C16_push_replaces_worst sort hs ops i he
  have hqp : q = p' := by rw [← hpdef] at hq; rw [hq] at hp; exact Option.some.inj hp
  subst hqp
  -- the state after the push is again reachable
  have hrun : q = run sort empty (ops ++ [.push i]) := by
    simp only [run, List.foldl_append, List.foldl_cons, List.foldl_nil, step]
    rw [show List.foldl (step sort) empty ops = p from rfl, hp]; rfl
  obtain ⟨c, hc, hcm, hcbest⟩ := (C15_best_current sort hs ops).2 he
  rw [← hpdef, hb] at hc; obtain rfl := Option.some.inj hc
  have hqne : (run sort empty (ops ++ [.push i])).members ≠ [] := by
    rw [← hrun, hset]; simpa using he
  obtain ⟨c', hc', -, hbest'⟩ := (C15_best_current sort hs (ops ++ [.push i])).2 hqne
  rw [← hrun, hb'] at hc'; obtain rfl := Option.some.inj hc'
  rw [← hrun] at hbest'
  -- some member as good as the old best is still there
  have : ∃ d ∈ q.members, RanksBefore d.toFloat b.toFloat := by
    obtain ⟨m, hm, hmb⟩ := List.mem_iff_getElem.1 hcm
    by_cases hmk : m = k
    · -- the old best was ranked last, so every member is as good
      obtain ⟨m', hm', hne⟩ : ∃ m', m' < p.members.length ∧ m' ≠ k := by
        by_cases h0 : k = 0
        · exact ⟨1, by omega, by omega⟩
        · exact ⟨0, by omega, by omega⟩
      refine ⟨p.members[m'], ?_, ?_⟩
      · rw [hset]
        exact List.mem_iff_getElem.2 ⟨m', by simpa using hm', by simp [Ne.symm hne, hpdef]⟩
      · subst hmk; rw [← hmb]; exact (hworst _ (List.getElem_mem _)).1
    · refine ⟨b, ?_, RanksBefore.refl _⟩
      rw [hset]
      exact List.mem_iff_getElem.2 ⟨m, by simpa using hm, by simp [Ne.symm hmk, hmb]⟩
  obtain ⟨d, hd, hdb⟩ := this
  have hR := (hbest' d hd).1.trans hdb
  exact ⟨hR, hR.not_lt⟩

/-- With a single member a push can make the best worse (populations have at least 20, C14). -/
theorem C16_single_member_exception :
    ((push stableSort (run stableSort empty [.refill [i1]]) i3).map fun p => (best stableSort p).2)
      = some (some i3) ∧ i1.lt i3 = true := by decide +kernel

/-- Non-vacuity: a push onto three members removes the NaN one. -/
example : (push stableSort (run stableSort empty [.refill [i3, iNaN, i1]]) i1).map (·.members)
    = some [i3, i1, i1] := by decide +kernel

example := C14_size 10 (by decide) 3

example := C15_ranking_current stableSort stableSort_sorts [.refill [i3, iNaN, i1], .push i3]

example := C15_sorted_current stableSort stableSort_sorts [.refill [i3, iNaN, i1], .push i3]

example := C15_members stableSort (run stableSort empty [.refill [i3, iNaN, i1]]) 1 i3

example := C16_push_replaces_worst stableSort stableSort_sorts [.refill [i3, iNaN, i1]] i1

example := C16_push_keeps_best stableSort stableSort_sorts [.refill [i3, iNaN, i1]] i3 i1 i1 _ (by decide +kernel)
  (eq_get (by decide +kernel)) (by decide +kernel) (by decide +kernel)

end Population
end Ade
