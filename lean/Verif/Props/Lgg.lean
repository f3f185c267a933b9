import Verif.Model.Lgg
import Mathlib.Data.List.Chain
import Mathlib.Data.List.Induction
import Mathlib.Tactic.Linarith

/-!
# The log grepper (C59, C65)
-/

set_option autoImplicit false

namespace Ade
namespace Lgg

/-! ### C59: rows kept -/

theorem trimLoop_sublist (maxRatio maxDiff best : ℚ) (last : Row) (rs : List Row) :
    (trimLoop maxRatio maxDiff best last rs).Sublist rs := by
  induction rs generalizing last with
  | nil => exact List.Sublist.refl _
  | cons r rs ih =>
    unfold trimLoop
    split_ifs
    · exact List.nil_sublist _
    · exact (ih r).cons_cons r
    · exact (ih last).cons r

theorem select_sublist (maxRatio maxDiff : ℚ) (K : List Row) :
    (select maxRatio maxDiff K).Sublist K := by
  cases K with
  | nil => exact List.Sublist.refl _
  | cons r rs => exact (trimLoop_sublist maxRatio maxDiff r.sse r rs).cons_cons r

theorem trimLoop_within (maxRatio maxDiff best : ℚ) (last : Row) (rs : List Row) :
    ∀ r ∈ trimLoop maxRatio maxDiff best last rs, r.sse ≤ maxRatio * best := by
  induction rs generalizing last with
  | nil => simp [trimLoop]
  | cons r rs ih =>
    unfold trimLoop
    split_ifs with h1 h2
    · simp
    · intro x hx
      rcases List.mem_cons.mp hx with rfl | hx
      · exact not_lt.mp h1
      · exact ih _ x hx
    · exact ih last

theorem sliceLast_sublist {α : Type} (n : ℕ) (xs : List α) : (sliceLast n xs).Sublist xs := by
  unfold sliceLast
  split_ifs
  · exact List.Sublist.refl _
  · exact List.drop_sublist _ _

/-- The rows that qualify: what is left with no row limit. -/
def qualifying (maxRatio maxDiff : ℚ) (K : List Row) : List Row := trim maxRatio maxDiff 0 K

theorem qualifying_eq (maxRatio maxDiff : ℚ) (K : List Row) :
    qualifying maxRatio maxDiff K = (select maxRatio maxDiff K).reverse := by
  simp [qualifying, trim, sliceLast]

/-- C59: the rows kept are rows of the log, in order of falling score (the best one last). -/
theorem C59_in_score_order (maxRatio maxDiff : ℚ) (maxRows : ℕ) (rows K : List Row)
    (h : IsArgsort rows K) :
    (∀ r ∈ trim maxRatio maxDiff maxRows K, r ∈ rows) ∧
    (trim maxRatio maxDiff maxRows K).Pairwise fun a b => b.sse ≤ a.sse := by
  have hs : (sliceLast maxRows (select maxRatio maxDiff K)).Sublist K :=
    (sliceLast_sublist _ _).trans (select_sublist _ _ _)
  constructor
  · intro r hr
    exact h.1.mem_iff.mp (hs.mem (List.mem_reverse.mp hr))
  · unfold trim
    rw [List.pairwise_reverse]
    exact h.2.sublist hs

/-- C59: at most the requested number of rows are kept. -/
theorem C59_row_limit (maxRatio maxDiff : ℚ) (maxRows : ℕ) (K : List Row) (h : maxRows ≠ 0) :
    (trim maxRatio maxDiff maxRows K).length ≤ maxRows := by
  simp only [trim, sliceLast, h, if_false, List.length_reverse, List.length_drop]
  omega

/-- C59: with a ratio of at least one and scores that are not negative, no kept row has a score above
that ratio times the lowest score. -/
theorem C59_within_ratio (maxRatio maxDiff : ℚ) (maxRows : ℕ) (rows K : List Row)
    (h : IsArgsort rows K) (hr : 1 ≤ maxRatio) (h0 : ∀ r ∈ rows, 0 ≤ r.sse) :
    ∀ r ∈ trim maxRatio maxDiff maxRows K, ∀ b ∈ rows, (∀ x ∈ rows, b.sse ≤ x.sse) →
      r.sse ≤ maxRatio * b.sse := by
  intro r hr' b hb hmin
  have h1 := (sliceLast_sublist _ _).mem (List.mem_reverse.mp hr')
  cases K with
  | nil => simp [select] at h1
  | cons k ks =>
    have hk : k ∈ rows := h.1.mem_iff.mp List.mem_cons_self
    have hbk : k.sse = b.sse := by
      refine le_antisymm ?_ (hmin k hk)
      rcases List.mem_cons.mp (h.1.mem_iff.mpr hb) with rfl | hb'
      · exact le_refl _
      · exact (List.pairwise_cons.mp h.2).1 b hb'
    rcases List.mem_cons.mp h1 with rfl | h1
    · rw [hbk]
      have := h0 b hb
      nlinarith
    · rw [← hbk]
      exact trimLoop_within _ _ _ _ _ r h1

/-- C59 (partial: only while the limit is not exceeded): if no more rows qualify than the limit allows,
all of them are kept, and the one with the lowest score is last. -/
theorem C59_best_last_partial (maxRatio maxDiff : ℚ) (maxRows : ℕ) (rows K : List Row)
    (h : IsArgsort rows K) (hne : rows ≠ [])
    (hl : (qualifying maxRatio maxDiff K).length ≤ maxRows) :
    trim maxRatio maxDiff maxRows K = qualifying maxRatio maxDiff K ∧
    ∃ b ∈ rows, (∀ x ∈ rows, b.sse ≤ x.sse) ∧
      (trim maxRatio maxDiff maxRows K).getLast? = some b := by
  rw [qualifying_eq, List.length_reverse] at hl
  have e : trim maxRatio maxDiff maxRows K = qualifying maxRatio maxDiff K := by
    rw [qualifying_eq]
    unfold trim sliceLast
    split_ifs
    · rfl
    · rw [Nat.sub_eq_zero_of_le hl]; rfl
  refine ⟨e, ?_⟩
  cases K with
  | nil => exact absurd (List.Perm.nil_eq h.1).symm hne
  | cons k ks =>
    refine ⟨k, h.1.mem_iff.mp List.mem_cons_self, ?_, ?_⟩
    · intro x hx
      rcases List.mem_cons.mp (h.1.mem_iff.mpr hx) with rfl | hx
      · exact le_refl _
      · exact (List.pairwise_cons.mp h.2).1 x hx
    · rw [e, qualifying_eq]
      simp [select]

example : IsArgsort [⟨3, [1]⟩, ⟨1, [1]⟩, ⟨2, [1]⟩] [⟨1, [1]⟩, ⟨2, [1]⟩, ⟨3, [1]⟩] ∧
    trim 2 (1/100) 5 [⟨1, [1]⟩, ⟨2, [1]⟩, ⟨3, [1]⟩] = [⟨2, [1]⟩, ⟨1, [1]⟩] := by
  unfold IsArgsort
  decide +kernel

/-- The full statement of C59 is false whenever it matters: if more rows qualify than the limit allows,
the ones with the *highest* scores are kept and the others, the best one among them, are dropped. -/
theorem C59_limit_drops_best (maxRatio maxDiff : ℚ) (maxRows : ℕ) (rows K : List Row)
    (h : IsArgsort rows K) (h0 : maxRows ≠ 0)
    (hl : maxRows < (qualifying maxRatio maxDiff K).length) :
    ∃ dropped : List Row, dropped ≠ [] ∧
      qualifying maxRatio maxDiff K = trim maxRatio maxDiff maxRows K ++ dropped ∧
      (∀ d ∈ dropped, ∀ r ∈ trim maxRatio maxDiff maxRows K, d.sse ≤ r.sse) ∧
      (∃ b ∈ dropped, ∀ x ∈ rows, b.sse ≤ x.sse) := by
  rw [qualifying_eq, List.length_reverse] at hl
  have hsplit := List.take_append_drop ((select maxRatio maxDiff K).length - maxRows)
    (select maxRatio maxDiff K)
  have etrim : trim maxRatio maxDiff maxRows K =
      ((select maxRatio maxDiff K).drop ((select maxRatio maxDiff K).length - maxRows)).reverse := by
    simp [trim, sliceLast, h0]
  refine ⟨((select maxRatio maxDiff K).take
      ((select maxRatio maxDiff K).length - maxRows)).reverse, ?_, ?_, ?_, ?_⟩
  · intro hn
    have := congrArg List.length hn
    simp only [List.length_reverse, List.length_take, List.length_nil] at this
    omega
  · rw [qualifying_eq, etrim, ← List.reverse_append, hsplit]
  · intro d hd r hr
    rw [etrim] at hr
    have hp := h.2.sublist (select_sublist maxRatio maxDiff K)
    rw [← hsplit, List.pairwise_append] at hp
    exact hp.2.2 d (List.mem_reverse.mp hd) r (List.mem_reverse.mp hr)
  · cases K with
    | nil => simp [select] at hl
    | cons k ks =>
      refine ⟨k, ?_, ?_⟩
      · rw [List.mem_reverse]
        obtain ⟨m, hm⟩ : ∃ m, (select maxRatio maxDiff (k :: ks)).length - maxRows = m + 1 :=
          ⟨(select maxRatio maxDiff (k :: ks)).length - maxRows - 1, by omega⟩
        rw [hm]
        simp [select]
      · intro x hx
        rcases List.mem_cons.mp (h.1.mem_iff.mpr hx) with rfl | hx
        · exact le_refl _
        · exact (List.pairwise_cons.mp h.2).1 x hx

example : trim 2 (1/100) 1 [⟨1, [1]⟩, ⟨2, [1]⟩, ⟨3, [1]⟩] = [⟨2, [1]⟩] ∧
    (qualifying 2 (1/100) [⟨1, [1]⟩, ⟨2, [1]⟩, ⟨3, [1]⟩]).length = 2 := by decide +kernel

/-- The documented criterion for two values: they differ, relative to the size of the reference value,
by more than `maxDiff`. -/
def RelDiff (maxDiff a b : ℚ) : Prop := if b = 0 then maxDiff < |a| else maxDiff < |a - b| / |b|

theorem diffEnough_nonneg (maxDiff a b : ℚ) (hb : 0 ≤ b) :
    diffEnough maxDiff a b = true ↔ RelDiff maxDiff a b := by
  unfold diffEnough RelDiff
  rw [abs_of_nonneg hb]
  split_ifs <;> simp

/-- Each kept row differs from the next better kept row by more than `maxDiff` in its score or in some
parameter (for scores and parameters that are not negative). -/
theorem C59_neighbours_differ (maxRatio maxDiff : ℚ) (K : List Row)
    (h0 : ∀ r ∈ K, 0 ≤ r.sse ∧ ∀ v ∈ r.values, 0 ≤ v) (maxRows : ℕ) :
    (trim maxRatio maxDiff maxRows K).IsChain fun a b =>
      RelDiff maxDiff a.sse b.sse ∨ ∃ p ∈ List.zip a.values b.values, RelDiff maxDiff p.1 p.2 := by
  have key : ∀ (rs : List Row) (last best : Row), (0 ≤ last.sse ∧ ∀ v ∈ last.values, 0 ≤ v) →
      (∀ r ∈ rs, 0 ≤ r.sse ∧ ∀ v ∈ r.values, 0 ≤ v) →
      (last :: trimLoop maxRatio maxDiff best.sse last rs).IsChain fun b a =>
        RelDiff maxDiff a.sse b.sse ∨ ∃ p ∈ List.zip a.values b.values, RelDiff maxDiff p.1 p.2 := by
    intro rs
    induction rs with
    | nil => intro last best _ _; simp [trimLoop]
    | cons r rs ih =>
      intro last best hlast hrs
      have hrs' := fun x hx => hrs x (List.mem_cons_of_mem _ hx)
      unfold trimLoop
      split_ifs with h1 h2
      · simp
      · refine List.isChain_cons_cons.mpr ⟨?_, ih r best (hrs r List.mem_cons_self) hrs'⟩
        unfold differs at h2
        rcases Bool.or_eq_true _ _ ▸ h2 with h2 | h2
        · exact Or.inl ((diffEnough_nonneg _ _ _ hlast.1).mp h2)
        · right
          obtain ⟨p, hp, h3⟩ := List.any_eq_true.mp h2
          exact ⟨p, hp, (diffEnough_nonneg _ _ _ (hlast.2 _ (List.of_mem_zip hp).2)).mp h3⟩
      · exact ih last best hlast hrs'
  unfold trim
  rw [List.isChain_reverse]
  have hsel : (select maxRatio maxDiff K).IsChain fun b a =>
      RelDiff maxDiff a.sse b.sse ∨ ∃ p ∈ List.zip a.values b.values, RelDiff maxDiff p.1 p.2 := by
    cases K with
    | nil => simp [select]
    | cons k ks => exact key ks k k (h0 k List.mem_cons_self) fun r hr => h0 r (List.mem_cons_of_mem _ hr)
  unfold sliceLast
  split_ifs
  · exact hsel
  · exact hsel.drop _

/-- Every row within the ratio that is not kept (with no row limit) is close to a kept row that is not
worse: neither its score nor any parameter differs enough. -/
theorem C59_dropped_are_close (maxRatio maxDiff : ℚ) (k : Row) (ks : List Row)
    (h : (k :: ks).Pairwise fun a b => a.sse ≤ b.sse) :
    ∀ r ∈ ks, r.sse ≤ maxRatio * k.sse → r ∈ qualifying maxRatio maxDiff (k :: ks) ∨
      ∃ s ∈ qualifying maxRatio maxDiff (k :: ks), s.sse ≤ r.sse ∧
        diffEnough maxDiff r.sse s.sse = false ∧
        ∀ p ∈ List.zip r.values s.values, diffEnough maxDiff p.1 p.2 = false := by
  have key : ∀ (rs : List Row) (last : Row),
      (last :: rs).Pairwise (fun a b => a.sse ≤ b.sse) →
      ∀ r ∈ rs, r.sse ≤ maxRatio * k.sse → r ∈ trimLoop maxRatio maxDiff k.sse last rs ∨
        ∃ s ∈ last :: trimLoop maxRatio maxDiff k.sse last rs, s.sse ≤ r.sse ∧
          differs maxDiff r s = false := by
    intro rs
    induction rs with
    | nil => intro last _ r hr; simp at hr
    | cons x rs ih =>
      intro last hs r hr hle
      have hs1 := List.pairwise_cons.mp hs
      have hs2 := List.pairwise_cons.mp hs1.2
      have hx : ¬ maxRatio * k.sse < x.sse := by
        rcases List.mem_cons.mp hr with rfl | hr
        · exact not_lt.mpr hle
        · exact not_lt.mpr (le_trans (hs2.1 r hr) hle)
      unfold trimLoop
      rw [if_neg hx]
      split_ifs with h2
      · rcases List.mem_cons.mp hr with rfl | hr
        · exact Or.inl List.mem_cons_self
        · rcases ih x hs1.2 r hr hle with h3 | ⟨s, h3, h4⟩
          · exact Or.inl (List.mem_cons_of_mem _ h3)
          · exact Or.inr ⟨s, List.mem_cons_of_mem _ h3, h4⟩
      · rcases List.mem_cons.mp hr with rfl | hr
        · exact Or.inr ⟨last, List.mem_cons_self, hs1.1 _ List.mem_cons_self, by simpa using h2⟩
        · exact ih last (List.pairwise_cons.mpr
            ⟨fun y hy => hs1.1 y (List.mem_cons_of_mem _ hy), hs2.2⟩) r hr hle
  intro r hr hle
  simp only [qualifying_eq, List.mem_reverse, select]
  rcases key ks k h r hr hle with h1 | ⟨s, h1, h2, h3⟩
  · exact Or.inl (List.mem_cons_of_mem _ h1)
  · refine Or.inr ⟨s, h1, h2, ?_⟩
    simp only [differs, Bool.or_eq_false_iff] at h3
    refine ⟨h3.1, fun p hp => ?_⟩
    simpa using List.any_eq_false.mp h3.2 p hp

/-- A parameter whose reference value is negative never counts as different, however much it changed. -/
theorem C59_negative_never_differs (maxDiff a b : ℚ) (hm : 0 ≤ maxDiff) (hb : b < 0) :
    diffEnough maxDiff a b = false := by
  unfold diffEnough
  rw [if_neg hb.ne]
  simp only [decide_eq_false_iff_not, not_lt]
  exact le_trans (div_nonpos_of_nonneg_of_nonpos (abs_nonneg _) hb.le) hm

/-- So a row that differs by a factor of 100 from the best row in such a parameter is dropped, though the
documentation says it is kept. -/
theorem C59_negative_witness :
    trim 2 (1/100) 40 [⟨1000, [-1]⟩, ⟨1001, [-100]⟩] = [⟨1000, [-1]⟩] ∧
    RelDiff (1/100) (-100) (-1) := by
  unfold RelDiff
  decide +kernel

/-! ### C65: starred names -/

section Starred
set_option linter.unusedSectionVars false
variable {ν : Type} [LinearOrder ν]

/-- `e` is among the `N` entries with the lowest scores. -/
def AmongLowest (N : ℕ) (es : List (Entry ν)) (e : Entry ν) : Prop :=
  e ∈ es ∧ (es.filter fun x => x.sse < e.sse).length < N

theorem highest_le (bs : List (Entry ν)) : ∀ b ∈ bs, b.sse ≤ highest bs := by
  induction bs with
  | nil => simp
  | cons b bs ih =>
    cases bs with
    | nil => simp [highest]
    | cons c cs =>
      intro x hx
      rcases List.mem_cons.mp hx with rfl | hx
      · exact le_max_left _ _
      · exact le_trans (ih x hx) (le_max_right _ _)

theorem highest_mem (bs : List (Entry ν)) (h : bs ≠ []) : ∃ b ∈ bs, b.sse = highest bs := by
  induction bs with
  | nil => exact absurd rfl h
  | cons b bs ih =>
    cases bs with
    | nil => exact ⟨b, List.mem_cons_self, rfl⟩
    | cons c cs =>
      obtain ⟨x, hx, hx'⟩ := ih (List.cons_ne_nil _ _)
      rcases le_total b.sse (highest (c :: cs)) with h1 | h1
      · exact ⟨x, List.mem_cons_of_mem _ hx, by rw [hx']; exact (max_eq_right h1).symm⟩
      · exact ⟨b, List.mem_cons_self, (max_eq_left h1).symm⟩

theorem remove_highest (bs : List (Entry ν)) (m : Entry ν) (hm : m ∈ bs)
    (hd : (bs.map Entry.sse).Nodup) :
    bs.Perm (m :: bs.filter fun b => b.sse ≠ m.sse) := by
  induction bs with
  | nil => simp at hm
  | cons b bs ih =>
    simp only [List.map_cons, List.nodup_cons] at hd
    rcases List.mem_cons.mp hm with rfl | hm
    · have : (m :: bs).filter (fun b => b.sse ≠ m.sse) = bs := by
        rw [List.filter_cons]
        simp only [ne_eq, not_true_eq_false, decide_false, Bool.false_eq_true, if_false]
        rw [List.filter_eq_self]
        intro x hx
        simp only [decide_eq_true_eq]
        intro h
        exact hd.1 (h ▸ List.mem_map_of_mem hx)
      rw [this]
    · have hne : b.sse ≠ m.sse := fun h => hd.1 (h ▸ List.mem_map_of_mem hm)
      rw [List.filter_cons]
      simp only [ne_eq, hne, not_false_eq_true, decide_true, if_true]
      exact ((ih hm hd.2).cons b).trans (List.Perm.swap _ _ _)

theorem put_new (bs : List (Entry ν)) (e : Entry ν) (h : ∀ b ∈ bs, b.sse ≠ e.sse) :
    put bs e = bs ++ [e] := by
  unfold put
  rw [if_neg]
  simpa using h

/-- For distinct scores, the dict holds the entries with the lowest scores. -/
theorem bestEntries_inv (N : ℕ) (hN : 0 < N) (es : List (Entry ν))
    (hd : (es.map Entry.sse).Nodup) :
    ∃ D : List (Entry ν), es.Perm (bestEntries N es ++ D) ∧
      (∀ b ∈ bestEntries N es, ∀ d ∈ D, b.sse < d.sse) ∧ (bestEntries N es).length ≤ N ∧
      ((bestEntries N es).length = N ∨ D = []) := by
  induction es using List.reverseRecOn with
  | nil => exact ⟨[], by simp [bestEntries], by simp, by simp [bestEntries], Or.inr rfl⟩
  | append_singleton es e ih =>
    rw [List.map_append, List.nodup_append] at hd
    obtain ⟨D, h1, h2, h3, h4⟩ := ih hd.1
    have hnew : ∀ x ∈ es, x.sse ≠ e.sse := fun x hx =>
      hd.2.2 x.sse (List.mem_map_of_mem hx) e.sse (by simp)
    have estep : bestEntries N (es ++ [e]) = bestStep N (bestEntries N es) e := by
      simp [bestEntries]
    rw [estep]
    generalize bestEntries N es = B at *
    have hBnew : ∀ x ∈ B, x.sse ≠ e.sse := fun x hx =>
      hnew x (h1.mem_iff.mpr (List.mem_append_left _ hx))
    have hDnew : ∀ x ∈ D, x.sse ≠ e.sse := fun x hx =>
      hnew x (h1.mem_iff.mpr (List.mem_append_right _ hx))
    have hBd : (B.map Entry.sse).Nodup := by
      have := (h1.map Entry.sse).nodup_iff.mp hd.1
      rw [List.map_append, List.nodup_append] at this
      exact this.1
    unfold bestStep
    split_ifs with c1 c2
    · have hD : D = [] := h4.resolve_left (by omega)
      subst hD
      rw [put_new B e hBnew]
      refine ⟨[], ?_, by simp, by simp; omega, Or.inr rfl⟩
      simp only [List.append_nil] at h1 ⊢
      exact h1.append_right [e]
    · have hBl : B.length = N := by omega
      obtain ⟨m, hm, hme⟩ := highest_mem B (by intro h; simp [h] at hBl; omega)
      rw [← hme] at c2 ⊢
      have hp := remove_highest B m hm hBd
      have hsub : ∀ x ∈ B.filter (fun b => b.sse ≠ m.sse), x ∈ B := fun x hx =>
        (List.mem_filter.mp hx).1
      rw [put_new _ e fun b hb => hBnew b (hsub b hb)]
      have hlen := hp.length_eq
      simp only [List.length_cons] at hlen
      refine ⟨m :: D, ?_, ?_, by simp at hlen ⊢; omega, Or.inl (by simp at hlen ⊢; omega)⟩
      · generalize B.filter (fun b => b.sse ≠ m.sse) = B' at *
        calc es ++ [e] |>.Perm ((B ++ D) ++ [e]) := h1.append_right _
          _ |>.Perm ((m :: B' ++ D) ++ [e]) := (hp.append_right _).append_right _
          _ |>.Perm (B' ++ [e] ++ m :: D) := by
            rw [List.perm_iff_count]
            intro a
            simp only [List.count_append, List.count_cons, List.count_nil, List.cons_append]
            omega
      · intro b hb d hd'
        have hbm : b.sse < m.sse := by
          rcases List.mem_append.mp hb with hb | hb
          · have h5 := List.mem_filter.mp hb
            have h6 := highest_le B b h5.1
            rw [← hme] at h6
            exact lt_of_le_of_ne h6 (by simpa using h5.2)
          · simp only [List.mem_singleton] at hb
            rw [hb]; exact c2
        rcases List.mem_cons.mp hd' with rfl | hd'
        · exact hbm
        · exact hbm.trans (h2 m hm d hd')
    · have hBl : B.length = N := by omega
      refine ⟨D ++ [e], ?_, ?_, h3, Or.inl hBl⟩
      · rw [← List.append_assoc]; exact h1.append_right _
      · intro b hb d hd'
        rcases List.mem_append.mp hd' with hd' | hd'
        · exact h2 b hb d hd'
        · simp only [List.mem_singleton] at hd'
          rw [hd']
          refine lt_of_le_of_ne ?_ (hBnew b hb)
          exact (highest_le B b hb).trans (not_lt.mp c2)

theorem mem_bestEntries (N : ℕ) (hN : 0 < N) (es : List (Entry ν))
    (hd : (es.map Entry.sse).Nodup) (e : Entry ν) :
    e ∈ bestEntries N es ↔ AmongLowest N es e := by
  obtain ⟨D, h1, h2, h3, h4⟩ := bestEntries_inv N hN es hd
  unfold AmongLowest
  rw [(h1.filter _).length_eq, List.filter_append, List.length_append]
  generalize bestEntries N es = B at *
  constructor
  · intro he
    refine ⟨h1.mem_iff.mpr (List.mem_append_left _ he), ?_⟩
    have hD : D.filter (fun x => decide (x.sse < e.sse)) = [] := by
      rw [List.filter_eq_nil_iff]
      intro d hd'
      simp only [decide_eq_true_eq, not_lt]
      exact (h2 e he d hd').le
    rw [hD, List.length_nil, Nat.add_zero]
    have : (B.filter fun x => decide (x.sse < e.sse)).length < B.length :=
      List.length_filter_lt_length_iff_exists.mpr ⟨e, he, by simp⟩
    omega
  · rintro ⟨he, hlt⟩
    rcases List.mem_append.mp (h1.mem_iff.mp he) with h | h
    · exact h
    · exfalso
      have hB : B.filter (fun x => decide (x.sse < e.sse)) = B := by
        rw [List.filter_eq_self]
        intro b hb
        simpa using h2 b hb e h
      rw [hB] at hlt
      rcases h4 with h4 | h4
      · omega
      · rw [h4] at h; simp at h

theorem collect_mem (xs acc : List ν) (n : ν) :
    n ∈ xs.foldl (fun names n => if n ∈ names then names else names ++ [n]) acc ↔
      n ∈ acc ∨ n ∈ xs := by
  induction xs generalizing acc with
  | nil => simp
  | cons x xs ih =>
    rw [List.foldl_cons, ih]
    split_ifs with h
    · constructor
      · rintro (h1 | h1)
        · exact Or.inl h1
        · exact Or.inr (List.mem_cons_of_mem _ h1)
      · rintro (h1 | h1)
        · exact Or.inl h1
        · rcases List.mem_cons.mp h1 with rfl | h1
          · exact Or.inl h
          · exact Or.inr h1
    · simp [or_assoc]

theorem collect_nodup (xs acc : List ν) (h : acc.Nodup) :
    (xs.foldl (fun names n => if n ∈ names then names else names ++ [n]) acc).Nodup := by
  induction xs generalizing acc with
  | nil => exact h
  | cons x xs ih =>
    rw [List.foldl_cons]
    apply ih
    split_ifs with h1
    · exact h
    · rw [List.nodup_append]
      exact ⟨h, by simp, fun a ha b hb => by rintro rfl; simp at hb; exact h1 (hb ▸ ha)⟩

/-- C65 (partial: distinct scores): the names returned are exactly the names with a star in one of the `N`
entries with the lowest scores, each once and in order. -/
theorem C65_starred_partial (N : ℕ) (hN : 0 < N) (es : List (Entry ν))
    (hd : (es.map Entry.sse).Nodup) :
    (∀ n, n ∈ starredNames N es ↔
      ∃ e, AmongLowest N es e ∧ ∃ s, (n, s) ∈ e.params ∧ s ≠ 0) ∧
    (starredNames N es).Nodup ∧ (starredNames N es).Pairwise (· ≤ ·) := by
  have hp := List.perm_insertionSort (· ≤ ·) (namesOf (bestEntries N es))
  refine ⟨fun n => ?_, ?_, ?_⟩
  · unfold starredNames
    rw [hp.mem_iff]
    unfold namesOf
    rw [collect_mem]
    simp only [List.not_mem_nil, false_or, List.mem_flatMap, List.mem_map, List.mem_filter,
      mem_bestEntries N hN es hd]
    constructor
    · rintro ⟨e, he, x, ⟨hx, hx0⟩, rfl⟩
      exact ⟨e, he, x.2, hx, by simpa using hx0⟩
    · rintro ⟨e, he, s, hs, hs0⟩
      exact ⟨e, he, (n, s), ⟨hs, by simpa using hs0⟩, rfl⟩
  · exact hp.nodup_iff.mpr (collect_nodup _ _ List.nodup_nil)
  · exact List.pairwise_insertionSort _ _

example : starredNames 2 [⟨3, [(1, 2)]⟩, ⟨1, [(5, 1), (4, 0)]⟩, ⟨2, [(2, 1)]⟩] = [2, 5] ∧
    ([⟨3, [(1, 2)]⟩, ⟨1, [(5, 1), (4, 0)]⟩, ⟨2, [(2, 1)]⟩].map (Entry.sse (ν := ℕ))).Nodup := by
  decide +kernel

theorem mem_names (B : List (Entry ν)) (n : ν) : n ∈ (namesOf B).insertionSort (· ≤ ·) ↔ ∃ e ∈ B, ∃ s, (n, s) ∈ e.params ∧ s ≠ 0 := by
  rw [(List.perm_insertionSort (· ≤ ·) (namesOf B)).mem_iff]
  unfold namesOf
  rw [collect_mem]
  simp only [List.not_mem_nil, false_or, List.mem_flatMap, List.mem_map, List.mem_filter]
  constructor
  · rintro ⟨e, he, x, ⟨hx, hx0⟩, rfl⟩
    exact ⟨e, he, x.2, hx, by simpa using hx0⟩
  · rintro ⟨e, he, s, hs, hs0⟩
    exact ⟨e, he, (n, s), ⟨hs, by simpa using hs0⟩, rfl⟩

theorem put_spec (bs : List (Entry ν)) (e : Entry ν) (hd : (bs.map Entry.sse).Nodup) :
    ((put bs e).map Entry.sse).Nodup ∧ (put bs e).length ≤ bs.length + 1 ∧ e ∈ put bs e ∧
      (∀ b ∈ put bs e, b = e ∨ b ∈ bs) ∧ ∀ b ∈ bs, b.sse ≠ e.sse → b ∈ put bs e := by
  unfold put
  split_ifs with h
  · have hm : (bs.map fun b => if b.sse = e.sse then e else b).map Entry.sse = bs.map Entry.sse := by
      rw [List.map_map]
      apply List.map_congr_left
      intro b _
      by_cases hb : b.sse = e.sse
      · simp [hb]
      · simp [hb]
    refine ⟨by rw [hm]; exact hd, by simp, ?_, ?_, ?_⟩
    · rw [List.any_eq_true] at h
      obtain ⟨b, hb, hbe⟩ := h
      exact List.mem_map.2 ⟨b, hb, if_pos (by simpa using hbe)⟩
    · intro b hb
      obtain ⟨a, ha, rfl⟩ := List.mem_map.1 hb
      split_ifs
      · exact Or.inl rfl
      · exact Or.inr ha
    · intro b hb hne
      exact List.mem_map.2 ⟨b, hb, if_neg hne⟩
  · have h' : ∀ b ∈ bs, b.sse ≠ e.sse := by simpa using h
    refine ⟨?_, by simp, by simp, ?_, ?_⟩
    · rw [List.map_append, List.nodup_append]
      refine ⟨hd, by simp, ?_⟩
      intro a ha b hb
      simp only [List.map_cons, List.map_nil, List.mem_singleton] at hb
      obtain ⟨c, hc, rfl⟩ := List.mem_map.1 ha
      rw [hb]
      exact h' c hc
    · intro b hb
      rcases List.mem_append.1 hb with hb | hb
      · exact Or.inr hb
      · exact Or.inl (by simpa using hb)
    · intro b hb _
      exact List.mem_append_left _ hb

/-- C65, what holds for every log, also with equal scores: the names returned are the starred ones of some entries of the log, at most
`N` of them and no two with the same score, among them one with the lowest score of all. -/
theorem C65_any_log_partial (N : ℕ) (hN : 0 < N) (es : List (Entry ν)) :
    ∃ B : List (Entry ν), (∀ b ∈ B, b ∈ es) ∧ B.length ≤ N ∧ (B.map Entry.sse).Nodup ∧
      (es ≠ [] → ∃ b ∈ B, ∀ e ∈ es, b.sse ≤ e.sse) ∧
      ∀ n, n ∈ starredNames N es ↔ ∃ b ∈ B, ∃ s, (n, s) ∈ b.params ∧ s ≠ 0 := by
  refine ⟨bestEntries N es, ?_⟩
  rw [← and_assoc, ← and_assoc, ← and_assoc]
  refine ⟨?_, fun n => mem_names _ n⟩
  rw [and_assoc, and_assoc]
  induction es using List.reverseRecOn with
  | nil => simp [bestEntries]
  | append_singleton es e ih =>
    obtain ⟨h1, h2, h3, h4⟩ := ih
    have hstep : bestEntries N (es ++ [e]) = bestStep N (bestEntries N es) e := by simp [bestEntries]
    rw [hstep]
    have hne : bestEntries N es ≠ [] → es ≠ [] := by
      rintro h rfl
      exact h rfl
    generalize bestEntries N es = B at *
    have hin : ∀ x, x = e ∨ x ∈ B → x ∈ es ++ [e] := by
      rintro x (rfl | hx)
      · simp
      · exact List.mem_append_left _ (h1 x hx)
    unfold bestStep
    split_ifs with hl hh
    · obtain ⟨p1, p2, p3, p4, p5⟩ := put_spec B e h3
      refine ⟨fun b hb => hin b (p4 b hb), by omega, p1, fun _ => ?_⟩
      by_cases hes : es = []
      · subst hes
        exact ⟨e, p3, by simp⟩
      · obtain ⟨b, hb, hmin⟩ := h4 hes
        rcases le_or_gt e.sse b.sse with hc | hc
        · refine ⟨e, p3, fun x hx => ?_⟩
          rcases List.mem_append.1 hx with hx | hx
          · exact hc.trans (hmin x hx)
          · rw [List.mem_singleton.1 hx]
        · refine ⟨b, p5 b hb hc.ne, fun x hx => ?_⟩
          rcases List.mem_append.1 hx with hx | hx
          · exact hmin x hx
          · rw [List.mem_singleton.1 hx]; exact hc.le
    · have hB : B ≠ [] := by rintro rfl; simp at hl; omega
      obtain ⟨m, hm, hms⟩ := highest_mem B hB
      have hlen : (B.filter fun b => decide (b.sse ≠ highest B)).length < B.length :=
        List.length_filter_lt_length_iff_exists.mpr ⟨m, hm, by simp [hms]⟩
      have hsub : ((B.filter fun b => decide (b.sse ≠ highest B)).map Entry.sse).Nodup :=
        h3.sublist (List.filter_sublist.map _)
      obtain ⟨p1, p2, p3, p4, p5⟩ := put_spec (B.filter fun b => decide (b.sse ≠ highest B)) e hsub
      refine ⟨fun b hb => hin b ((p4 b hb).imp id List.mem_of_mem_filter), by omega, p1, fun _ => ?_⟩
      obtain ⟨b, hb, hmin⟩ := h4 (hne hB)
      rcases le_or_gt e.sse b.sse with hc | hc
      · refine ⟨e, p3, fun x hx => ?_⟩
        rcases List.mem_append.1 hx with hx | hx
        · exact hc.trans (hmin x hx)
        · rw [List.mem_singleton.1 hx]
      · refine ⟨b, p5 b (List.mem_filter.2 ⟨hb, by simpa using (hc.trans hh).ne⟩) hc.ne, fun x hx => ?_⟩
        rcases List.mem_append.1 hx with hx | hx
        · exact hmin x hx
        · rw [List.mem_singleton.1 hx]; exact hc.le
    · have hB : B ≠ [] := by rintro rfl; simp at hl; omega
      refine ⟨fun b hb => hin b (Or.inr hb), h2, h3, fun _ => ?_⟩
      obtain ⟨b, hb, hmin⟩ := h4 (hne hB)
      refine ⟨b, hb, fun x hx => ?_⟩
      rcases List.mem_append.1 hx with hx | hx
      · exact hmin x hx
      · rw [List.mem_singleton.1 hx]
        exact (highest_le B b hb).trans (not_lt.1 hh)

example := C65_any_log_partial 2 (by decide) ([⟨1, []⟩, ⟨2, []⟩, ⟨1, []⟩, ⟨100, [(3, 1)]⟩] : List (Entry ℕ))

/-- For equal scores the full statement is false: the earlier of two entries with equal scores is
forgotten, even if there are fewer entries than requested. -/
theorem C65_tie_forgets :
    starredNames 4 [⟨1, [(1, 1)]⟩, ⟨1, [(2, 1)]⟩] = [2] ∧
    AmongLowest 4 [⟨1, [(1, 1)]⟩, ⟨1, [(2, 1)]⟩] (⟨1, [(1, 1)]⟩ : Entry ℕ) := by
  unfold AmongLowest
  decide +kernel

/-- And a repeated score (as when the final population table repeats the best one) lets a later, much
worse entry in. -/
theorem C65_repeat_admits_worst :
    starredNames 2 [⟨1, []⟩, ⟨2, []⟩, ⟨1, []⟩, ⟨100, [(3, 1)]⟩] = [3] ∧
    ¬ AmongLowest 2 [⟨1, []⟩, ⟨2, []⟩, ⟨1, []⟩, ⟨100, [(3, 1)]⟩] (⟨100, [(3, 1)]⟩ : Entry ℕ) := by
  unfold AmongLowest
  decide +kernel

/-- Three rows... -/
def exRows : List Row := [⟨3, [1]⟩, ⟨1, [1]⟩, ⟨2, [1]⟩]

/-- ... in the order of their scores. -/
def exSorted : List Row := [⟨1, [1]⟩, ⟨2, [1]⟩, ⟨3, [1]⟩]

theorem exRows_argsort : IsArgsort exRows exSorted := by
  unfold IsArgsort
  decide +kernel

example := C59_in_score_order 2 (1 / 100) 5 exRows exSorted exRows_argsort

example := C59_row_limit 2 (1 / 100) 5 exSorted (by decide)

example := C59_within_ratio 2 (1 / 100) 5 exRows exSorted exRows_argsort (by norm_num) (by decide +kernel)

example := C59_neighbours_differ 2 (1 / 100) exSorted (by decide +kernel) 5

example := C59_dropped_are_close 2 (1 / 100) ⟨1, [1]⟩ [⟨2, [1]⟩, ⟨3, [1]⟩] exRows_argsort.2

example := C59_negative_never_differs (1 / 100) 5 (-5) (by norm_num) (by norm_num)

example := C65_starred_partial 2 (by decide) [⟨3, [(1, 2)]⟩, ⟨1, [(5, 1), (4, 0)]⟩, ⟨2, [(2, 1)]⟩] (by decide +kernel)

end Starred
end Lgg
end Ade
