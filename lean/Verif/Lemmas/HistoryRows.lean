import Verif.Model.History
import Mathlib.Order.Nat
import Mathlib.Data.List.Sort
import Mathlib.Data.Finset.Range

/-! Helper lemmas about the choice of a free row (`scan`, `pickRow`) and of the record position. -/

set_option autoImplicit false

namespace Ade
namespace History

/-- A row found by the loop is free, above the first row, and below some allocated row. -/
theorem scan_fresh (N : Nat) (l : List Nat) (hs : l.Pairwise (· < ·)) (r : Nat)
    (h : scan N l = some r) : r ∉ l ∧ (∀ a ∈ l.head?, a < r) ∧ ∃ x ∈ l, r < x := by
  induction l with
  | nil => simp [scan] at h
  | cons a l ih =>
    match l with
    | [] => simp [scan] at h
    | [b] => simp [scan] at h
    | kr :: c :: rest =>
      have hs' : (kr :: c :: rest).Pairwise (· < ·) := (List.pairwise_cons.1 hs).2
      have hakr : a < kr := (List.pairwise_cons.1 hs).1 kr (by simp)
      have hkr : ∀ x ∈ c :: rest, kr < x := (List.pairwise_cons.1 hs').1
      have hc : ∀ x ∈ rest, c < x := (List.pairwise_cons.1 (List.pairwise_cons.1 hs').2).1
      have hkrc := hkr c (by simp)
      have recur : scan N (kr :: c :: rest) = some r →
          r ∉ a :: kr :: c :: rest ∧ (∀ y ∈ (a :: kr :: c :: rest).head?, y < r) ∧
          ∃ x ∈ a :: kr :: c :: rest, r < x := by
        intro h'
        obtain ⟨h1, h2, x, hx, hxr⟩ := ih hs' h'
        have h3 : kr < r := h2 kr (by simp)
        refine ⟨?_, ?_, x, by simp at hx ⊢; tauto, hxr⟩
        · simp only [List.mem_cons, not_or] at h1 ⊢
          exact ⟨by omega, h1⟩
        · simp; omega
      unfold scan at h
      split at h
      · exact recur h
      · split at h
        · simp at h
        · split at h
          · simp only [Option.some.injEq] at h
            subst h
            refine ⟨?_, by simp; omega, kr, by simp, by omega⟩
            simp only [List.mem_cons, not_or]
            refine ⟨by omega, by omega, by omega, fun hx => ?_⟩
            have := hc _ hx; omega
          · split at h
            · simp only [Option.some.injEq] at h
              subst h
              refine ⟨?_, by simp; omega, c, by simp, by omega⟩
              simp only [List.mem_cons, not_or]
              refine ⟨by omega, by omega, by omega, fun hx => ?_⟩
              have := hc _ hx; omega
            · exact recur h

/-- If the loop finds nothing on rows that start contiguously, they are contiguous. -/
theorem scan_contiguous (N : Nat) (rest : List Nat) : ∀ a, (a :: (a+1) :: rest).Pairwise (· < ·) →
    a + (rest.length + 2) ≤ N → scan N (a :: (a+1) :: rest) = none →
    ∀ x ∈ a :: (a+1) :: rest, x < a + (rest.length + 2) := by
  induction rest with
  | nil => intro a _ _ _ x hx; simp at hx; simp; omega
  | cons c rest ih =>
    intro a hs hN h x hx
    have hs' := (List.pairwise_cons.1 hs).2
    unfold scan at h
    simp only [List.length_cons] at hN
    rw [if_neg (by omega), if_neg (by omega), if_neg (by omega)] at h
    split at h
    · simp at h
    · rename_i hc
      have hc : c = a + 1 + 1 := by omega
      subst hc
      have := ih (a+1) hs' (by omega) h
      rcases List.mem_cons.1 hx with rfl | hx
      · simp
      · have := this x hx; simp; omega

/-- The sets of rows for which the row picked is already allocated. -/
def Collides (Ks : List Nat) (N : Nat) : Prop :=
  (Ks = [0, 2] ∧ N = 2) ∨ ∃ rest, 3 ≤ N ∧ Ks = 0 :: (N - 1) :: N :: rest

theorem collides_iff (Ks : List Nat) (N : Nat) :
    Collides Ks N ↔ (Ks = [0, 2] ∧ N = 2) ∨ (3 ≤ N ∧ Ks.take 3 = [0, N - 1, N]) := by
  unfold Collides
  constructor
  · rintro (h | ⟨rest, h1, h2⟩)
    · exact .inl h
    · exact .inr ⟨h1, by rw [h2]; simp⟩
  · rintro (h | ⟨h1, h2⟩)
    · exact .inl h
    · refine .inr ⟨Ks.drop 3, h1, ?_⟩
      have := List.take_append_drop 3 Ks
      rw [h2] at this; simpa using this.symm

instance (Ks : List Nat) (N : Nat) : Decidable (Collides Ks N) :=
  decidable_of_iff _ (collides_iff Ks N).symm

theorem getLast_ge (l : List Nat) (h : l ≠ []) (hs : l.Pairwise (· < ·)) (x : Nat) (hx : x ∈ l) :
    x ≤ l.getLast h := by
  rcases List.eq_nil_or_concat l with rfl | ⟨l', b, rfl⟩
  · simp at h
  · simp only [List.concat_eq_append, List.getLast_append_singleton] at *
    rw [List.pairwise_append] at hs
    rcases List.mem_append.1 hx with hx | hx
    · exact (hs.2.2 x hx b (by simp)).le
    · simp at hx; omega

theorem pickRow_some (k0 : Nat) (ks : List Nat) (N r : Nat) (h : scan N (k0 :: ks) = some r) :
    pickRow (k0 :: ks) N = some r := by
  simp only [pickRow, h]

theorem pickRow_none (k0 : Nat) (ks : List Nat) (N : Nat) (h : scan N (k0 :: ks) = none) :
    pickRow (k0 :: ks) N =
      if k0 > 0 then some (k0 - 1) else some (min N ((k0 :: ks).getLast (by simp) + 1)) := by
  simp only [pickRow, h]

/-- In a roster with as many rows as `N`, the row picked is free unless `Collides`. -/
theorem pickRow_fresh (Ks : List Nat) (N : Nat) (hs : Ks.Pairwise (· < ·)) (hne : Ks ≠ [])
    (hlen : Ks.length = N) (hc : ¬ Collides Ks N) :
    ∃ r, pickRow Ks N = some r ∧ r ∉ Ks ∧ (r ≤ N ∨ ∃ x ∈ Ks, r < x) := by
  match Ks, hne with
  | k0 :: ks, _ =>
    cases h : scan N (k0 :: ks) with
    | some r =>
      obtain ⟨h1, _, h3⟩ := scan_fresh _ _ hs r h
      exact ⟨r, pickRow_some _ _ _ _ h, h1, .inr h3⟩
    | none =>
      rw [pickRow_none _ _ _ h]
      split
      · refine ⟨_, rfl, ?_, .inr ⟨k0, by simp, by omega⟩⟩
        simp only [List.mem_cons, not_or]
        refine ⟨by omega, fun hx => ?_⟩
        have := (List.pairwise_cons.1 hs).1 _ hx; omega
      · rename_i hk0
        have hk0 : k0 = 0 := by omega
        subst hk0
        refine ⟨_, rfl, ?_, .inl (Nat.min_le_left _ _)⟩
        by_cases hl : (0 :: ks).getLast (by simp) + 1 ≤ N
        · rw [Nat.min_eq_right hl]
          intro hx
          have := getLast_ge _ (by simp) hs _ hx
          omega
        · rw [Nat.min_eq_left (by omega)]
          match ks, h, hs, hlen, hc, hl with
          | [], _, _, hlen, _, _ => simp at hlen ⊢; omega
          | [b], _, hs, hlen, hc, _ =>
            simp at hlen hs; subst hlen
            simp only [List.mem_cons, List.not_mem_nil, or_false, not_or]
            refine ⟨by omega, fun hb => hc (.inl ⟨by rw [← hb], rfl⟩)⟩
          | b :: c :: rest, h, hs, hlen, hc, _ =>
            have hs' := (List.pairwise_cons.1 hs).2
            have h0b := (List.pairwise_cons.1 hs).1 b (by simp)
            have hbc := (List.pairwise_cons.1 hs').1 c (by simp)
            have hcr := (List.pairwise_cons.1 (List.pairwise_cons.1 hs').2).1
            simp only [List.length_cons] at hlen
            unfold scan at h
            rw [if_neg (by omega)] at h
            split at h
            · rename_i hbN
              intro hx
              apply hc
              refine .inr ⟨rest, by omega, ?_⟩
              have : c = N := by
                simp only [List.mem_cons] at hx
                rcases hx with hx | hx | hx | hx
                · omega
                · omega
                · omega
                · have := hcr _ hx; omega
              rw [this]; congr 2; omega
            · split at h
              · simp at h
              · split at h
                · simp at h
                · have hb : b = 1 := by omega
                  subst hb
                  have hc2 : c = 1 + 1 := by omega
                  subst hc2
                  have := scan_contiguous N rest 1 hs' (by omega) h
                  intro hx
                  rcases List.mem_cons.1 hx with hx | hx
                  · omega
                  · have := this _ hx; omega

/-- If `Collides`, the row picked is allocated. -/
theorem pickRow_collides (Ks : List Nat) (N : Nat) (hc : Collides Ks N)
    (hs : Ks.Pairwise (· < ·)) : ∃ r, pickRow Ks N = some r ∧ r ∈ Ks := by
  rcases hc with ⟨rfl, rfl⟩ | ⟨rest, hN, rfl⟩
  · exact ⟨2, by decide, by simp⟩
  · refine ⟨N, ?_, by simp⟩
    have : scan N (0 :: (N-1) :: N :: rest) = none := by
      unfold scan
      rw [if_neg (by omega), if_pos (by omega)]
    rw [pickRow_none _ _ _ this]
    simp only [gt_iff_lt, lt_self_iff_false, if_false, Option.some.injEq]
    apply Nat.min_eq_left
    have := getLast_ge _ (by simp) hs N (by simp)
    omega

/-- After one row was removed from a completely allocated array of `M` rows (`M = 2` or `M ≥ 4`), the row
picked is free and exists. -/
theorem pickRow_full (Ks : List Nat) (M : Nat) (hs : Ks.Pairwise (· < ·)) (hM : M = 2 ∨ 4 ≤ M)
    (hlen : Ks.length + 1 = M) (hlt : ∀ x ∈ Ks, x < M) :
    ∃ r, pickRow Ks M = some r ∧ r ∉ Ks ∧ r < M := by
  match Ks with
  | [] => simp at hlen; omega
  | k0 :: ks =>
    cases h : scan M (k0 :: ks) with
    | some r =>
      obtain ⟨h1, _, x, hx, hrx⟩ := scan_fresh _ _ hs r h
      exact ⟨r, pickRow_some _ _ _ _ h, h1, by have := hlt x hx; omega⟩
    | none =>
      rw [pickRow_none _ _ _ h]
      split
      · have := hlt k0 (by simp)
        refine ⟨_, rfl, ?_, by omega⟩
        simp only [List.mem_cons, not_or]
        refine ⟨by omega, fun hx => ?_⟩
        have := (List.pairwise_cons.1 hs).1 _ hx; omega
      · rename_i hk0
        have hk0 : k0 = 0 := by omega
        subst hk0
        have hlast : (0 :: ks).getLast (by simp) + 1 < M := by
          match ks, h, hs, hlen, hlt with
          | [], _, _, hlen, _ => simp at hlen ⊢; omega
          | [b], _, hs, hlen, _ => simp at hlen; omega
          | b :: c :: rest, h, hs, hlen, hlt =>
            have hs' := (List.pairwise_cons.1 hs).2
            have h0b := (List.pairwise_cons.1 hs).1 b (by simp)
            have hbc := (List.pairwise_cons.1 hs').1 c (by simp)
            have hcM := hlt c (by simp)
            simp only [List.length_cons] at hlen
            unfold scan at h
            rw [if_neg (by omega), if_neg (by omega)] at h
            split at h
            · simp at h
            · split at h
              · simp at h
              · have hb : b = 1 := by omega
                subst hb
                have hc2 : c = 1 + 1 := by omega
                subst hc2
                have := scan_contiguous M rest 1 hs' (by omega) h
                have hm := List.getLast_mem (l := 1 :: (1+1) :: rest) (by simp)
                have := this _ hm
                rw [List.getLast_cons (by simp)]
                omega
        refine ⟨_, rfl, ?_, ?_⟩
        · rw [Nat.min_eq_right (by omega)]
          intro hx
          have := getLast_ge _ (by simp) hs _ hx
          omega
        · rw [Nat.min_eq_right (by omega)]; omega

theorem sortRows_perm (K : List Nat) : (sortRows K).Perm K := List.perm_insertionSort _ _

theorem sortRows_sorted (K : List Nat) (h : K.Nodup) : (sortRows K).Pairwise (· < ·) := by
  have h1 : (sortRows K).Pairwise (· ≤ ·) := List.pairwise_insertionSort _ _
  have h2 : (sortRows K).Nodup := (sortRows_perm K).nodup_iff.2 h
  have h3 := h1.and h2
  apply h3.imp
  intro a b hab
  have : a ≤ b := hab.1
  have := hab.2
  omega

theorem mem_sortRows {K : List Nat} {r : Nat} : r ∈ sortRows K ↔ r ∈ K := (sortRows_perm K).mem_iff

/-- Inserting after the initial segment. -/
theorem insertIdx_takeWhile {α : Type} (p : α → Bool) (l : List α) (x : α) :
    l.insertIdx (l.takeWhile p).length x = l.takeWhile p ++ x :: l.dropWhile p := by
  induction l with
  | nil => simp
  | cons a l ih =>
    by_cases h : p a
    · simp [h, ih]
    · simp [h]

theorem all_rows_of_full (K : List Nat) (M : Nat) (hn : K.Nodup) (hlt : ∀ x ∈ K, x < M)
    (hlen : K.length = M) : ∀ x < M, x ∈ K := by
  have hsub : K.toFinset ⊆ Finset.range M := by
    intro x hx; simp at hx ⊢; exact hlt x hx
  have heq : K.toFinset = Finset.range M := by
    apply Finset.eq_of_subset_of_card_le hsub
    rw [List.toFinset_card_of_nodup hn]; simp [hlen]
  intro x hx
  have : x ∈ K.toFinset := by rw [heq]; simpa using hx
  simpa using this

theorem length_le_of_lt (K : List Nat) (M : Nat) (hn : K.Nodup) (hlt : ∀ x ∈ K, x < M) :
    K.length ≤ M := by
  have hsub : K.toFinset ⊆ Finset.range M := by
    intro x hx; simp at hx ⊢; exact hlt x hx
  have := Finset.card_le_card hsub
  rw [List.toFinset_card_of_nodup hn] at this
  simpa using this

end History
end Ade
