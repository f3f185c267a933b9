import Mathlib.Data.List.Range
import Mathlib.Data.Finset.Card
import Mathlib.Data.Fintype.Card
import Verif.Lemmas.History
import Verif.Lemmas.HistoryRows

/-! C139: the documentation of `History.kkr` (ade/history.py:946-986) gives the loop that once chose the row
of a new record, and says that the optimized search "does this same thing".  Both are compared here: the
documented loop never picks a row in use, and while no record was removed other than to make room for
another, both give the same row.  In general they differ, and then the optimized search may pick a row in
use. -/

set_option autoImplicit false

namespace Ade
namespace History

/-- One step of the documented loop (ade/history.py:969-972): what it returns at the row `kr`, if it
does. -/
def documentedStep (K : List Nat) (N kr : Nat) : Option Nat :=
  if 0 < kr ∧ kr - 1 ∉ K then some (kr - 1)
  else if kr + 1 < N ∧ kr + 1 ∉ K then some (kr + 1)
  else none

/-- The documented loop (ade/history.py:968-973) over the rows in the order of their scores, `N` as passed
by `add`. -/
def documentedRow (K : List Nat) (N : Nat) : Nat :=
  ((K.findSome? (documentedStep K N)).getD N)

theorem documentedStep_some {K : List Nat} {N kr r : Nat} (h : documentedStep K N kr = some r) :
    r ∉ K ∧ (r < kr ∨ r < N) := by
  unfold documentedStep at h
  split_ifs at h with h1 h2
  · cases h; exact ⟨h1.2, .inl (by omega)⟩
  · cases h; exact ⟨h2.2, .inr h2.1⟩

theorem documentedStep_none {K : List Nat} {N kr : Nat} (h : documentedStep K N kr = none) :
    (0 < kr → kr - 1 ∈ K) ∧ (kr + 1 < N → kr + 1 ∈ K) := by
  unfold documentedStep at h
  split_ifs at h with h1 h2
  constructor
  · intro h0; by_contra h; exact h1 ⟨h0, h⟩
  · intro h0; by_contra h; exact h2 ⟨h0, h⟩

theorem documentedRow_cases (K : List Nat) (N : Nat) :
    (∃ kr ∈ K, documentedStep K N kr = some (documentedRow K N)) ∨
      (documentedRow K N = N ∧ ∀ kr ∈ K, documentedStep K N kr = none) := by
  unfold documentedRow
  cases h : K.findSome? (documentedStep K N) with
  | some r =>
    obtain ⟨kr, hk, he⟩ := List.exists_of_findSome?_eq_some h
    exact .inl ⟨kr, hk, he⟩
  | none => exact .inr ⟨rfl, List.findSome?_eq_none_iff.1 h⟩

/-- Rows in use, each with the one before it in use: these are the first ones. -/
theorem down_closed {K : List Nat} (hn : K.Nodup) (hd : ∀ kr ∈ K, 0 < kr → kr - 1 ∈ K) (r : Nat) :
    r ∈ K ↔ r < K.length := by
  have hsub : ∀ x ∈ K, ∀ y ≤ x, y ∈ K := by
    intro x
    induction x with
    | zero => intro hx y hy; rwa [Nat.le_zero.1 hy]
    | succ x ih =>
      intro hx y hy
      rcases Nat.lt_or_ge x y with h | h
      · rwa [show y = x + 1 by omega]
      · exact ih (by simpa using hd _ hx (by omega)) y h
  have key : ∀ x ∈ K, x < K.length := by
    intro x hx
    have h1 : (Finset.range (x + 1)) ⊆ K.toFinset := by
      intro y hy
      exact List.mem_toFinset.2 (hsub x hx y (by have := Finset.mem_range.1 hy; omega))
    have h2 := Finset.card_le_card h1
    rw [Finset.card_range, List.toFinset_card_of_nodup hn] at h2
    omega
  have heq : K.toFinset = Finset.range K.length := by
    apply Finset.eq_of_subset_of_card_le
    · intro x hx
      exact Finset.mem_range.2 (key x (List.mem_toFinset.1 hx))
    · rw [Finset.card_range, List.toFinset_card_of_nodup hn]
  rw [← List.mem_toFinset, heq, Finset.mem_range]

/-- The documented loop never picks a row in use, whichever rows are in use and in whichever order: neither
when it is called with room left (`N` is the number of records) nor when one record was removed to make room
(`N` is one more). -/
theorem C139_documented_fresh (K : List Nat) (N : Nat) (hn : K.Nodup)
    (hN : N = K.length ∨ N = K.length + 1) : documentedRow K N ∉ K := by
  rcases documentedRow_cases K N with ⟨kr, _, h⟩ | ⟨h, hall⟩
  · exact (documentedStep_some h).1
  · rw [h, down_closed hn (fun kr hk => (documentedStep_none (hall kr hk)).1)]
    omega

/-- The row picked by the documented loop exists: it is within the first `nMax` ones if all rows in use are
and there was room. -/
theorem C139_documented_exists (K : List Nat) (N nMax : Nat) (hn : K.Nodup) (hne : K ≠ [])
    (hlt : ∀ x ∈ K, x < nMax)
    (hN : (N = K.length ∧ N < nMax) ∨ (N = K.length + 1 ∧ N = nMax)) : documentedRow K N < nMax := by
  rcases documentedRow_cases K N with ⟨kr, hk, h⟩ | ⟨h, hall⟩
  · rcases (documentedStep_some h).2 with h1 | h1
    · exact h1.trans (hlt _ hk)
    · omega
  · rcases hN with h1 | h1
    · omega
    · exfalso
      have hd := down_closed hn (fun kr hk => (documentedStep_none (hall kr hk)).1)
      have hp : 0 < K.length := List.length_pos_of_ne_nil hne
      have hm : K.length - 1 ∈ K := (hd _).2 (by omega)
      have := (documentedStep_none (hall _ hm)).2 (by omega)
      have := (hd _).1 this
      omega

/-- With the rows in use being the first ones, both pick the next one. -/
theorem C139_same_appending_partial (K : List Nat) (hn : K.Nodup) (hne : K ≠ [])
    (hfirst : ∀ r, r ∈ K ↔ r < K.length) :
    documentedRow K K.length = K.length ∧ pickRow (sortRows K) K.length = some K.length := by
  refine ⟨?_, pickRow_contiguous K hn hne hfirst⟩
  rcases documentedRow_cases K K.length with ⟨kr, hk, h⟩ | ⟨h, _⟩
  · exfalso
    obtain ⟨h1, h2⟩ := documentedStep_some h
    have := (hfirst kr).1 hk
    exact h1 ((hfirst _).2 (by omega))
  · exact h

/-- After one record was removed from a full history, both pick its row. -/
theorem C139_same_evicted_partial (K : List Nat) (nMax : Nat) (hn : K.Nodup) (hM : nMax = 2 ∨ 4 ≤ nMax)
    (hlen : K.length + 1 = nMax) (hlt : ∀ x ∈ K, x < nMax) :
    ∃ r < nMax, r ∉ K ∧ (∀ x < nMax, x ≠ r → x ∈ K) ∧
      documentedRow K nMax = r ∧ pickRow (sortRows K) nMax = some r := by
  have hne : K ≠ [] := by rintro rfl; simp at hlen; omega
  obtain ⟨r, hr, hf, hb⟩ := pickRow_full (sortRows K) nMax (sortRows_sorted K hn) hM
    (by rw [(sortRows_perm K).length_eq, hlen]) (fun x hx => hlt x (mem_sortRows.1 hx))
  have hrK : r ∉ K := fun e => hf (mem_sortRows.2 e)
  have hall : ∀ x < nMax, x ≠ r → x ∈ K := by
    intro x hx hxr
    by_contra hxK
    have h1 : K.toFinset ⊆ ((Finset.range nMax).erase r).erase x := by
      intro y hy
      have hy := List.mem_toFinset.1 hy
      refine Finset.mem_erase.2 ⟨fun e => hxK (e ▸ hy), Finset.mem_erase.2 ⟨fun e => hrK (e ▸ hy), ?_⟩⟩
      exact Finset.mem_range.2 (hlt y hy)
    have h2 := Finset.card_le_card h1
    rw [List.toFinset_card_of_nodup hn,
      Finset.card_erase_of_mem (Finset.mem_erase.2 ⟨hxr, Finset.mem_range.2 hx⟩),
      Finset.card_erase_of_mem (Finset.mem_range.2 hb), Finset.card_range] at h2
    omega
  refine ⟨r, hb, hrK, hall, ?_, hr⟩
  by_contra hd
  exact C139_documented_fresh K nMax hn (.inr hlen.symm)
    (hall _ (C139_documented_exists K nMax nMax hn hne hlt (.inr ⟨hlen.symm, rfl⟩)) hd)

theorem scan_documented (N : Nat) (K pre : List Nat) (a : Nat) (l : List Nat) (hK : K = pre ++ a :: l)
    (hs : K.Pairwise (· < ·)) (ha : a + 1 < N) :
    scan N (a :: l) = (l.dropLast.takeWhile (· ≠ N - 1)).findSome? (documentedStep K N) := by
  induction l generalizing pre a with
  | nil => rfl
  | cons kr l ih =>
    cases l with
    | nil => rfl
    | cons c rest =>
      have hs' := hs
      rw [hK, List.pairwise_append] at hs'
      obtain ⟨-, h2, h3⟩ := hs'
      have hak := (List.pairwise_cons.1 h2).1 kr (by simp)
      have h2' := (List.pairwise_cons.1 h2).2
      have hkc := (List.pairwise_cons.1 h2').1 c (by simp)
      have h2'' := (List.pairwise_cons.1 h2').2
      have hprev : kr - 1 ∉ K ↔ a + 1 ≠ kr := by
        rw [hK]
        constructor
        · rintro h rfl; apply h; simp
        · intro h hm
          rcases List.mem_append.1 hm with hm | hm
          · have := h3 _ hm a (by simp); omega
          · rcases List.mem_cons.1 hm with hm | hm
            · omega
            · rcases List.mem_cons.1 hm with hm | hm
              · omega
              · have := (List.pairwise_cons.1 h2').1 _ hm; omega
      have hnext : kr + 1 ∉ K ↔ c ≠ kr + 1 := by
        rw [hK]
        constructor
        · rintro h rfl; apply h; simp
        · intro h hm
          rcases List.mem_append.1 hm with hm | hm
          · have := h3 _ hm a (by simp); omega
          · simp only [List.mem_cons] at hm
            rcases hm with hm | hm | hm | hm
            · omega
            · omega
            · omega
            · have := (List.pairwise_cons.1 h2'').1 _ hm; omega
      rw [List.dropLast_cons_of_ne_nil (by simp)]
      unfold scan
      rw [if_neg (by omega)]
      by_cases hb : kr + 1 = N
      · rw [if_pos hb, List.takeWhile_cons_of_neg (by simp; omega)]; rfl
      · rw [if_neg hb, List.takeWhile_cons_of_pos (by simp; omega), List.findSome?_cons]
        by_cases h1 : a + 1 = kr
        · have e1 : ¬ (0 < kr ∧ kr - 1 ∉ K) := fun h => (hprev.1 h.2) h1
          by_cases h4 : c = kr + 1
          · have e : documentedStep K N kr = none := by
              unfold documentedStep
              rw [if_neg e1, if_neg (fun h => (hnext.1 h.2) h4)]
            rw [e, if_neg (not_not.2 h1), if_neg (not_not.2 h4)]
            exact ih (pre ++ [a]) kr (by rw [hK]; simp) (by omega)
          · have e : documentedStep K N kr = some (kr + 1) := by
              unfold documentedStep
              rw [if_neg e1, if_pos ⟨by omega, hnext.2 h4⟩]
            rw [e, if_neg (not_not.2 h1), if_pos h4]
        · have e : documentedStep K N kr = some (kr - 1) := by
            unfold documentedStep
            rw [if_pos ⟨by omega, hprev.2 h1⟩]
          rw [e, if_pos h1]

/-- What the optimized search does instead, with the first row in use: it takes the steps of the documented
loop at the rows in ascending order, leaving out the first and the last one and not going on from row
`N - 1`; if none of these has a free row beside it, it picks the row after the last one, but at most `N`. -/
theorem C139_optimized (ks : List Nat) (N : Nat) (hs : (0 :: ks).Pairwise (· < ·)) (hN : 2 ≤ N) :
    pickRow (0 :: ks) N =
      some (((ks.dropLast.takeWhile (· ≠ N - 1)).findSome? (documentedStep (0 :: ks) N)).getD
        (min N ((0 :: ks).getLast (by simp) + 1))) := by
  have h := scan_documented N (0 :: ks) [] 0 ks rfl hs (by omega)
  cases hc : scan N (0 :: ks) with
  | some r => rw [pickRow_some _ _ _ _ hc, ← h, hc]; rfl
  | none => rw [pickRow_none _ _ _ hc, ← h, hc]; rfl

/-- Wherever the optimized search picks a row in use, the documented loop does not do the same. -/
theorem C139_differs_on_collision (K : List Nat) (hn : K.Nodup)
    (hc : Collides (sortRows K) K.length) :
    ∃ r, pickRow (sortRows K) K.length = some r ∧ r ∈ K ∧ documentedRow K K.length ≠ r := by
  obtain ⟨r, hr, hm⟩ := pickRow_collides _ _ hc (sortRows_sorted K hn)
  have hm := mem_sortRows.1 hm
  exact ⟨r, hr, hm, fun e => C139_documented_fresh K _ hn (.inl rfl) (e ▸ hm)⟩

/-- Concretely: with the rows 0 and 2 in use, the documented loop picks row 1, the optimized search row 2,
which is in use. -/
theorem C139_not_the_same :
    documentedRow [0, 2] 2 = 1 ∧ pickRow (sortRows [0, 2]) 2 = some 2 := by decide +kernel

/-- They also differ where neither picks a row in use: with the rows 5, 0, 1 and 3 in use, in the order of
the scores, the documented loop starts from the record of the lowest score and the optimized search from the
lowest row. -/
theorem C139_order_ignored :
    documentedRow [5, 0, 1, 3] 4 = 4 ∧ pickRow (sortRows [5, 0, 1, 3]) 4 = some 2 := by decide +kernel

namespace Demo

example : ([0, 1, 5, 9] : List Nat).Pairwise (· < ·) ∧ pickRow [0, 1, 5, 9] 4 = some 2 ∧
    documentedStep [0, 1, 5, 9] 4 1 = some 2 := by decide +kernel

example : ([2, 0, 5] : List Nat).Nodup ∧ ([2, 0, 5] : List Nat) ≠ [] := by decide

example : ([2, 0, 5] : List Nat).Nodup ∧ (∀ x ∈ ([2, 0, 5] : List Nat), x < 6) ∧
    ([2, 0, 5] : List Nat).length < 6 := by decide

example : ∀ r, r ∈ ([2, 0, 1] : List Nat) ↔ r < ([2, 0, 1] : List Nat).length := by
  intro r; simp; omega

example : ([3, 0, 1] : List Nat).Nodup ∧ ([3, 0, 1] : List Nat).length + 1 = 4 ∧
    ∀ x ∈ ([3, 0, 1] : List Nat), x < 4 := by decide

example : documentedRow [3, 0, 1] 4 = 2 ∧ pickRow (sortRows [3, 0, 1]) 4 = some 2 := by decide +kernel

example : Collides (sortRows [4, 0, 3, 7]) ([4, 0, 3, 7] : List Nat).length := by
  have : sortRows [4, 0, 3, 7] = [0, 3, 4, 7] := by decide +kernel
  rw [this]
  exact .inr ⟨[7], by decide, rfl⟩

example := C139_documented_fresh [2, 0, 5] 3 (by decide) (.inl rfl)

example := C139_documented_exists [2, 0, 5] 3 6 (by decide) (by decide) (by decide) (.inl (by decide))

example := C139_same_appending_partial [2, 0, 1] (by decide) (by decide) (by intro r; simp; omega)

example := C139_same_evicted_partial [3, 0, 1] 4 (by decide) (by decide) (by decide) (by decide)

example := C139_optimized [1, 5, 9] 4 (by decide) (by decide)

example := C139_differs_on_collision [4, 0, 3, 7] (by decide) (by
  have : sortRows [4, 0, 3, 7] = [0, 3, 4, 7] := by decide +kernel
  rw [this]
  exact .inr ⟨[7], by decide, rfl⟩)

end Demo

end History
end Ade
