import Verif.Model.ClosestPair
import Verif.Spec.History
import Mathlib.Data.Finset.Sort
import Mathlib.Tactic.Linarith
import Mathlib.Tactic.Ring
import Mathlib.Analysis.Complex.Exponential
import Mathlib.Tactic.NormNum

/-!
# Properties C43 and C60: which record is evicted
-/

set_option autoImplicit false

namespace Ade
namespace ClosestPair

theorem argmin_lt (ds : List PyFloat) (j : Nat) (h : argmin ds = some j) : j < ds.length := by
  cases ds with
  | nil => simp [argmin] at h
  | cons d ds =>
    unfold argmin at h
    split at h
    · simp at h; subst h; simp
    · rename_i j' hj'
      split at h
      · simp at h; subst h; simp
      · rename_i e he
        have : j' < ds.length := (List.getElem?_eq_some_iff.1 he).1
        split at h
        · simp at h; subst h; simp
        · split at h <;> simp at h <;> subst h <;> simp; omega

theorem argmin_isSome (ds : List PyFloat) (h : ds ≠ []) : ∃ j, argmin ds = some j := by
  cases ds with
  | nil => simp at h
  | cons d ds =>
    unfold argmin
    split
    · exact ⟨_, rfl⟩
    · split
      · exact ⟨_, rfl⟩
      · split
        · exact ⟨_, rfl⟩
        · split <;> exact ⟨_, rfl⟩

theorem lt_of_lt_of_notlt {x y z : PyFloat} (hx : x ≠ .nan) (hz : z ≠ .nan) (h1 : x.lt y = false)
    (h2 : z.lt y = true) : z.lt x = true := by
  cases x <;> cases y <;> cases z <;> simp_all [PyFloat.lt]
  linarith

theorem argmin_min (ds : List PyFloat) (hn : ∀ d ∈ ds, d ≠ .nan) (j : Nat) (h : argmin ds = some j)
    (hj : j < ds.length) : ∀ d ∈ ds, d.lt ds[j] = false := by
  induction ds generalizing j with
  | nil => simp at hj
  | cons d ds ih =>
    have irr : ∀ x : PyFloat, x.lt x = false := by intro x; cases x <;> simp [PyFloat.lt]
    have asymm : ∀ x y : PyFloat, x.lt y = true → y.lt x = false := by
      intro x y h; cases x <;> cases y <;> simp_all [PyFloat.lt]; linarith
    have tr : ∀ x y z : PyFloat, x.lt y = true → y.lt z = true → x.lt z = true := by
      intro x y z h1 h2; cases x <;> cases y <;> cases z <;> simp_all [PyFloat.lt]; linarith
    have hd := hn d (by simp)
    have hds := fun x hx => hn x (List.mem_cons_of_mem _ hx)
    unfold argmin at h
    cases ha : argmin ds with
    | none =>
      rw [ha] at h; simp at h; subst h
      have : ds = [] := by
        by_contra hne; obtain ⟨j, hj⟩ := argmin_isSome ds hne; rw [ha] at hj; simp at hj
      subst this
      intro x hx; simp at hx; subst hx; exact irr _
    | some j' =>
      have hj' := argmin_lt ds j' ha
      have ihj := ih hds j' ha hj'
      rw [ha] at h
      simp only [List.getElem?_eq_getElem hj'] at h
      have hdn : d.isNaN = false := by cases d <;> simp_all [PyFloat.isNaN]
      have hen : ds[j'].isNaN = false := by
        have := hds _ (List.getElem_mem hj')
        generalize ds[j'] = e at this
        cases e <;> simp_all [PyFloat.isNaN]
      simp only [hdn, hen, Bool.false_eq_true, if_false, Bool.false_or] at h
      split at h
      · rename_i hlt
        simp at h; subst h
        intro x hx
        simp only [List.getElem_cons_succ]
        rcases List.mem_cons.1 hx with rfl | hx
        · exact asymm _ _ hlt
        · exact ihj x hx
      · rename_i hlt
        simp at h; subst h
        intro x hx
        simp only [List.getElem_cons_zero]
        rcases List.mem_cons.1 hx with rfl | hx
        · exact irr _
        · cases hxd : x.lt d with
          | false => rfl
          | true =>
            have h1 := ihj x hx
            have h2 : ds[j'].lt d = false := by simpa using hlt
            have := lt_of_lt_of_notlt (hds _ (List.getElem_mem hj')) (hds x hx) h2 hxd
            rw [this] at h1; cases h1

theorem pickFirst_spec (D : Nat × Nat → PyFloat) (ps : List (Nat × Nat)) (hne : ps ≠ []) :
    ∃ p ∈ ps, pickFirst D ps = some p.1 ∧
      ((∀ q ∈ ps, D q ≠ .nan) → ∀ q ∈ ps, (D q).lt (D p) = false) := by
  obtain ⟨j, hj⟩ := argmin_isSome (ps.map D) (by simpa using hne)
  have hlt := argmin_lt _ _ hj
  rw [List.length_map] at hlt
  refine ⟨ps[j], List.getElem_mem hlt, ?_, ?_⟩
  · simp [pickFirst, hj, List.getElem?_eq_getElem hlt]
  · intro hn q hq
    have := argmin_min (ps.map D) (by
      intro d hd; obtain ⟨q', hq', rfl⟩ := List.mem_map.1 hd; exact hn q' hq') j hj (by simpa using hlt) (D q)
      (List.mem_map_of_mem hq)
    simpa using this

theorem mem_pairsAll (l : List Nat) (p : Nat × Nat) :
    p ∈ pairsAll l ↔ p.1 ∈ l ∧ p.2 ∈ l ∧ p.1 < p.2 := by
  simp only [pairsAll, List.mem_filter, List.mem_flatMap, List.mem_map, decide_eq_true_eq]
  constructor
  · rintro ⟨⟨a, ha, b, hb, rfl⟩, h⟩; exact ⟨ha, hb, h⟩
  · rintro ⟨h1, h2, h3⟩; exact ⟨⟨p.1, h1, p.2, h2, rfl⟩, h3⟩

theorem mem_pairsSampled (l : List Nat) (rounds : List (List (Nat × Nat)))
    (hd : ∀ r ∈ rounds, ∀ p ∈ r, p.1 ∈ l ∧ p.2 ∈ l) : ∀ N, ∀ p ∈ pairsSampled N rounds,
    p.1 ∈ l ∧ p.2 ∈ l ∧ p.1 < p.2 := by
  induction rounds with
  | nil => intro N p hp; simp [pairsSampled] at hp
  | cons r rs ih =>
    intro N p hp
    have hkeep : p ∈ keepIncreasing N r → p.1 ∈ l ∧ p.2 ∈ l ∧ p.1 < p.2 := by
      intro h
      have := List.mem_filter.1 (List.mem_of_mem_take h)
      have h2 := hd r (by simp) p this.1
      exact ⟨h2.1, h2.2, by simpa using this.2⟩
    simp only [pairsSampled] at hp
    split at hp
    · rcases List.mem_append.1 hp with h | h
      · exact hkeep h
      · exact ih (fun r hr => hd r (by simp [hr])) _ p h
    · exact hkeep hp

/-- The pairs that a sampling is to examine: the first `Np` drawn pairs that are increasing. -/
def drawnPairs (Np : Nat) (rounds : List (List (Nat × Nat))) : List (Nat × Nat) :=
  (rounds.flatten.filter fun p => decide (p.1 < p.2)).take Np

theorem pairsSampled_eq (rounds : List (List (Nat × Nat))) (N : Nat) :
    pairsSampled N rounds = drawnPairs N rounds := by
  induction rounds generalizing N with
  | nil => simp [pairsSampled, drawnPairs]
  | cons r rs ih =>
    have h1 : pairsSampled N (r :: rs) = if (keepIncreasing N r).length < N then
        keepIncreasing N r ++ pairsSampled (N - (keepIncreasing N r).length) rs
        else keepIncreasing N r := rfl
    have h2 : drawnPairs N (r :: rs) = keepIncreasing N r ++
        drawnPairs (N - (r.filter fun p => decide (p.1 < p.2)).length) rs := by
      simp only [keepIncreasing, drawnPairs, List.flatten_cons, List.filter_append, List.take_append]
    have h3 : (keepIncreasing N r).length = min N (r.filter fun p => decide (p.1 < p.2)).length := by
      simp only [keepIncreasing, List.length_take]
    rw [h1, h2]
    by_cases h : (keepIncreasing N r).length < N
    · rw [if_pos h, ih, h3, Nat.min_eq_right (by omega)]
    · rw [if_neg h, Nat.sub_eq_zero_of_le (by omega)]
      simp [drawnPairs]

/-- What is known of the random draws: pairs of active rows, and enough increasing pairs among them that
sampling ends. -/
structure Sampled (l : List Nat) (Np : Nat) (rounds : List (List (Nat × Nat))) : Prop where
  rows : ∀ r ∈ rounds, ∀ p ∈ r, p.1 ∈ l ∧ p.2 ∈ l
  enough : (drawnPairs Np rounds).length = Np

theorem pairsAll_ne_nil (l : List Nat) (hn : l.Nodup) (hlen : 2 ≤ l.length) : pairsAll l ≠ [] := by
  match l, hn, hlen with
  | a :: b :: l, hn, _ =>
    have hab : a ≠ b := by
      have := (List.nodup_cons.1 hn).1; simp at this; tauto
    intro h
    rcases Nat.lt_or_gt_of_ne hab with h1 | h1
    · have : (a, b) ∈ pairsAll (a :: b :: l) := (mem_pairsAll _ _).2 ⟨by simp, by simp, h1⟩
      rw [h] at this; simp at this
    · have : (b, a) ∈ pairsAll (a :: b :: l) := (mem_pairsAll _ _).2 ⟨by simp, by simp, h1⟩
      rw [h] at this; simp at this

/-- C43: with two or more eligible rows the row chosen is eligible; it belongs to an examined pair of eligible
rows of which no examined pair is closer (differences that are not NaN), and it is the lower row of that
pair.  Examined are all pairs if these are fewer than `Np`, else the first `Np` increasing pairs drawn. -/
theorem C43_chooses_from_closest_pair (l : List Nat) (hn : l.Nodup) (hlen : 2 ≤ l.length) (Np : Nat)
    (hNp : 0 < Np) (rounds : List (List (Nat × Nat))) (hs : Sampled l Np rounds)
    (D : Nat × Nat → PyFloat) :
    ∃ r r', call l Np rounds D = some r ∧ r ∈ l ∧ r' ∈ l ∧ r < r' ∧
      (l.length * (l.length - 1) / 2 < Np → (∀ a ∈ l, ∀ b ∈ l, a < b → D (a, b) ≠ .nan) →
        ∀ a ∈ l, ∀ b ∈ l, a < b → (D (a, b)).lt (D (r, r')) = false) ∧
      (Np ≤ l.length * (l.length - 1) / 2 → (r, r') ∈ drawnPairs Np rounds ∧
        ((∀ p ∈ drawnPairs Np rounds, D p ≠ .nan) →
          ∀ p ∈ drawnPairs Np rounds, (D p).lt (D (r, r')) = false)) := by
  have hcall : call l Np rounds D = pickFirst D
      (if l.length * (l.length - 1) / 2 < Np then pairsAll l else pairsSampled Np rounds) := by
    unfold call
    split
    · simp at hlen
    · rfl
  rw [hcall]
  by_cases hsmall : l.length * (l.length - 1) / 2 < Np
  · rw [if_pos hsmall]
    obtain ⟨p, hp, he, hmin⟩ := pickFirst_spec D (pairsAll l) (pairsAll_ne_nil l hn hlen)
    obtain ⟨h1, h2, h3⟩ := (mem_pairsAll l p).1 hp
    refine ⟨p.1, p.2, he, h1, h2, h3, fun _ hnan a ha b hb hab => ?_, fun h => by omega⟩
    refine hmin ?_ (a, b) ((mem_pairsAll l _).2 ⟨ha, hb, hab⟩)
    intro q hq
    obtain ⟨q1, q2, q3⟩ := (mem_pairsAll l q).1 hq
    exact hnan q.1 q1 q.2 q2 q3
  · rw [if_neg hsmall]
    have hne : pairsSampled Np rounds ≠ [] := by
      intro h; have := hs.enough; rw [← pairsSampled_eq, h] at this; simp at this; omega
    obtain ⟨p, hp, he, hmin⟩ := pickFirst_spec D _ hne
    obtain ⟨h1, h2, h3⟩ := mem_pairsSampled l rounds hs.rows Np p hp
    rw [pairsSampled_eq] at hp hmin
    exact ⟨p.1, p.2, he, h1, h2, h3, fun h => absurd h hsmall, fun _ => ⟨hp, hmin⟩⟩

example := C43_chooses_from_closest_pair [4, 7, 9] (by decide) (by decide) 2 (by decide)
  [[(7, 4), (4, 9), (9, 9)], [(4, 7)]] ⟨by decide, by decide⟩ (fun p => .fin (p.1 * p.2))

/-- C43: a single eligible row is the one chosen. -/
theorem C43_single (k Np : Nat) (rounds : List (List (Nat × Nat))) (D : Nat × Nat → PyFloat) :
    call [k] Np rounds D = some k := rfl

/-- Without eligible rows the call raises an exception (it is documented to yield `None`). -/
theorem C43_none_eligible_raises (Np : Nat) (hNp : 0 < Np) (rounds : List (List (Nat × Nat)))
    (D : Nat × Nat → PyFloat) : call [] Np rounds D = none := by
  simp [call, hNp, pairsAll, pickFirst, argmin]

example := C43_none_eligible_raises 10000 (by decide) [] (fun _ => .fin 1)

/-- C43: so evictions choose as assumed in the history theorems (C36–C41): always an eligible row if there
is one. -/
theorem C43_is_chooser (enum : Finset Nat → List Nat) (hen : ∀ S, (enum S).Nodup ∧ (enum S).toFinset = S)
    (Np : Nat) (hNp : 0 < Np) (rounds : Finset Nat → List (List (Nat × Nat)))
    (hs : ∀ S, 2 ≤ (enum S).length → Sampled (enum S) Np (rounds S)) (D : Nat × Nat → PyFloat) :
    History.Chooser fun S => call (enum S) Np (rounds S) D := by
  intro S hS
  have hmem : ∀ r, r ∈ enum S ↔ r ∈ S := fun r => by rw [← (hen S).2, List.mem_toFinset, (hen S).2]
  have hne : enum S ≠ [] := by
    intro h; obtain ⟨x, hx⟩ := hS
    have := (hmem x).2 hx; rw [h] at this; simp at this
  by_cases hlen : 2 ≤ (enum S).length
  · obtain ⟨r, _, hc, hr, _⟩ :=
      C43_chooses_from_closest_pair (enum S) (hen S).1 hlen Np hNp (rounds S) (hs S hlen) D
    exact ⟨r, (hmem r).1 hr, hc⟩
  · obtain ⟨k, hk⟩ : ∃ k, enum S = [k] := by
      match h : enum S with
      | [] => exact absurd h hne
      | [k] => exact ⟨k, rfl⟩
      | a :: b :: l => rw [h] at hlen; simp at hlen
    refine ⟨k, (hmem k).1 (by rw [hk]; simp), ?_⟩
    simp only [hk]; rfl

/-- Rows enumerated in ascending order, and one pair drawn, that of the first two rows. -/
example := C43_is_chooser (fun S => S.sort (· ≤ ·)) (fun S => ⟨S.sort_nodup (· ≤ ·), S.sort_toFinset (· ≤ ·)⟩) 1
  (by decide) (fun S => [[((S.sort (· ≤ ·)).getD 0 0, (S.sort (· ≤ ·)).getD 1 0)]])
  (fun S hS => by
    have hs := S.sortedLT_sort
    generalize S.sort (· ≤ ·) = l at *
    match l, hS, hs with
    | a :: b :: l, _, hs =>
      have hab : a < b := by
        have := hs.pairwise
        simp only [List.pairwise_cons, List.mem_cons, forall_eq_or_imp] at this
        exact this.1.1
      exact ⟨by simp, by simp [drawnPairs, hab]⟩)
  (fun p => .fin (p.1 * p.2))

/-- C43: a row with a non-finite entry is never made eligible, any other is. -/
theorem C43_rejects_nonfinite (c : Finder) (k : Nat) (nip : Bool) :
    c.setRow k false nip = none ∧ ∃ c', c.setRow k true nip = some c' ∧ k ∈ c'.K := by
  refine ⟨rfl, _, rfl, by simp⟩

/-- A small instance: three rows, all three pairs examined. -/
example : Sampled [4, 7, 9] 2 [[(7, 4), (4, 9), (9, 9)], [(4, 7)]] :=
  ⟨by decide, by decide⟩

example : call [4, 7, 9] 10000 [] (fun p => .fin (p.1 * p.2)) = some 4 := by decide +kernel

/-! ## C60 -/

/-- C60 is not what the code does: the extra penalty for rows that were never in the population depends on
`floor(number of such rows / number of pairs examined)`, which is zero for every set of four or more
eligible rows, however many of them never were in the population. -/
theorem C60_penalty_never_grows (nRows nNever nPairs : Nat) (h4 : 4 ≤ nRows) (hn : nNever ≤ nRows)
    (hp : nRows * (nRows - 1) / 2 ≤ nPairs) : penaltyStep nNever nPairs = 0 := by
  unfold penaltyStep
  apply Nat.div_eq_of_lt
  have h1 : nRows * 3 ≤ nRows * (nRows - 1) := Nat.mul_le_mul_left _ (by omega)
  omega

example := C60_penalty_never_grows 10 9 45 (by decide) (by decide) (by decide)

/-- C60 likewise when pairs are sampled: fewer rows than pairs. -/
theorem C60_penalty_never_grows_sampled (nRows nNever nPairs : Nat) (hn : nNever ≤ nRows)
    (hp : nRows < nPairs) : penaltyStep nNever nPairs = 0 :=
  Nat.div_eq_of_lt (by omega)

example := C60_penalty_never_grows_sampled 10 9 30 (by decide) (by decide)

/-- The divisor applied to the difference of a pair whose first row was never in the population
(ade/history.py:733-734). -/
noncomputable def penalty (nNever nPairs : Nat) : ℝ :=
  1 + Real.exp (12 * ((penaltyStep nNever nPairs : ℝ) - 0.4))

/-- C60, what does hold: such a pair always counts as (slightly) closer than it is, so that its first row is
more likely to be evicted. -/
theorem C60_never_members_favoured_partial (nNever nPairs : Nat) (d : ℝ) (hd : 0 < d) :
    d / penalty nNever nPairs < d := by
  have := Real.exp_pos (12 * ((penaltyStep nNever nPairs : ℝ) - 0.4))
  apply div_lt_self hd
  unfold penalty; linarith

example := C60_never_members_favoured_partial 9 45 (1 / 2) (by norm_num)

/-- ... by a divisor that is the same constant however many never-members there are. -/
theorem C60_penalty_constant (nRows nNever nPairs : Nat) (h4 : 4 ≤ nRows) (hn : nNever ≤ nRows)
    (hp : nRows * (nRows - 1) / 2 ≤ nPairs) : penalty nNever nPairs = 1 + Real.exp (-4.8) := by
  unfold penalty
  rw [C60_penalty_never_grows nRows nNever nPairs h4 hn hp]
  norm_num

example : (4 : Nat) ≤ 10 ∧ 9 ≤ 10 ∧ 10 * (10 - 1) / 2 ≤ 45 := by decide

end ClosestPair
end Ade
