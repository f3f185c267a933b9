import Verif.Model.TimeData
import Mathlib.Data.List.Perm.Basic
import Mathlib.Data.List.Forall2
import Mathlib.Tactic.Linarith

/-!
# Property C99: readings from a CSV file
-/

set_option autoImplicit false

namespace Ade
namespace TimeData

/-- A row index is wanted: it is in some range, or no ranges are given. -/
def Wanted (ranges : List Range) (k : ℕ) : Prop :=
  ranges = [] ∨ ∃ r ∈ ranges, r.1 ≤ k ∧ ∀ e, r.2 = some e → k < e

instance (ranges : List Range) (k : ℕ) : Decidable (Wanted ranges k) := by
  unfold Wanted
  have : ∀ r : Range, Decidable (r.1 ≤ k ∧ ∀ e, r.2 = some e → k < e) := fun r => by
    obtain ⟨a, b⟩ := r
    cases b with
    | none => exact decidable_of_iff (a ≤ k) (by simp)
    | some e => exact decidable_of_iff (a ≤ k ∧ k < e) (by simp)
  infer_instance

theorem added_eq (k : ℕ) (ranges : List Range) (h : ranges ≠ []) :
    added k ranges = if Wanted ranges k then 1 else 0 := by
  have : ∀ rs : List Range, added k rs = if ∃ r ∈ rs, r.1 ≤ k ∧ ∀ e, r.2 = some e → k < e then 1 else 0 := by
    intro rs
    induction rs with
    | nil => simp [added]
    | cons r rs ih =>
      obtain ⟨k0, k1⟩ := r
      have hiff : (k1 = none ∨ ∃ e ∈ k1, k < e) ↔ ∀ e, k1 = some e → k < e := by
        cases k1 <;> simp
      rw [added]
      simp only [hiff]
      by_cases hc : k0 ≤ k ∧ ∀ e, k1 = some e → k < e
      · rw [if_pos hc, if_pos ⟨(k0, k1), by simp, hc⟩]
      · rw [if_neg hc, ih]
        congr 1
        apply propext
        simp [hc]
  rw [this]
  congr 1
  apply propext
  simp [Wanted, h]

theorem select_eq (ranges : List Range) (t0 : ℚ) (l : List Reading) : ∀ k,
    select ranges t0 k l =
      (((l.zipIdx k).filter fun x => decide (Wanted ranges x.2)).map fun x => x.1.1 - t0,
       ((l.zipIdx k).filter fun x => decide (Wanted ranges x.2)).map fun x => x.1.2) := by
  induction l with
  | nil => intro k; rfl
  | cons r l ih =>
    intro k
    have hn : (if ranges = [] then 1 else added k ranges) = if Wanted ranges k then 1 else 0 := by
      by_cases h : ranges = []
      · rw [if_pos h, if_pos (.inl h)]
      · rw [if_neg h, added_eq k ranges h]
    rw [select]
    rw [hn, ih, List.zipIdx_cons, List.filter_cons]
    by_cases hw : Wanted ranges k
    · simp [hw]
    · simp [hw]

theorem insert_perm (r : Reading) (l : List Reading) : (insert r l).Perm (r :: l) := by
  induction l with
  | nil => exact .refl _
  | cons x l ih =>
    rw [insert]
    split
    · exact .refl _
    · exact (ih.cons x).trans (.swap r x l)

theorem sort_perm (l : List Reading) : (sort l).Perm l := by
  induction l with
  | nil => exact .refl _
  | cons r l ih => exact (insert_perm r _).trans (ih.cons r)

theorem insert_sorted (r : Reading) (l : List Reading) (h : l.Pairwise fun a b => a.1 ≤ b.1) :
    (insert r l).Pairwise fun a b => a.1 ≤ b.1 := by
  induction l with
  | nil => simp [insert]
  | cons x l ih =>
    rw [List.pairwise_cons] at h
    rw [insert]
    split
    · rename_i hx
      refine List.pairwise_cons.2 ⟨?_, List.pairwise_cons.2 h⟩
      intro b hb
      rcases List.mem_cons.1 hb with rfl | hb
      · exact hx
      · exact hx.trans (h.1 b hb)
    · rename_i hx
      refine List.pairwise_cons.2 ⟨?_, ih h.2⟩
      intro b hb
      rcases List.mem_cons.1 ((insert_perm r l).mem_iff.1 hb) with rfl | hb
      · exact (lt_of_not_ge hx).le
      · exact h.1 b hb

theorem sort_sorted (l : List Reading) : (sort l).Pairwise fun a b => a.1 ≤ b.1 := by
  induction l with
  | nil => exact .nil
  | cons r l ih => exact insert_sorted r _ ih

theorem insert_filter (r : Reading) (τ : ℚ) (l : List Reading) :
    (insert r l).filter (fun x => x.1 = τ) = (r :: l).filter fun x => x.1 = τ := by
  induction l with
  | nil => rfl
  | cons x l ih =>
    rw [insert]
    split
    · rfl
    · rename_i hx
      rw [List.filter_cons, ih]
      simp only [List.filter_cons]
      by_cases h1 : x.1 = τ
      · have h2 : r.1 ≠ τ := fun h => hx (by rw [h, h1])
        simp [h1, h2]
      · simp [h1]

theorem sort_stable (τ : ℚ) (l : List Reading) :
    (sort l).filter (fun x => x.1 = τ) = l.filter fun x => x.1 = τ := by
  induction l with
  | nil => rfl
  | cons r l ih => rw [sort, insert_filter, List.filter_cons, ih, List.filter_cons]

/-- C99: a row of the file is read as the numbers of its fields, the first of them the time; a field that is no number makes it
unreadable. -/
theorem C99_row (float : List Char → Option ℚ) (c : List Char) (row : List (List Char)) :
    (∀ x l, float c = some x → List.Forall₂ (fun f v => float f = some v) row l → reading float (c :: row) = some (x, l)) ∧
      ((∃ f ∈ c :: row, float f = none) → reading float (c :: row) = none) := by
  constructor
  · intro x l hx hl
    have hm : row.mapM float = some l := by
      induction hl with
      | nil => rfl
      | cons h _ ih => simp [List.mapM_cons, h, ih]
    simp [reading, hx, hm]
  · rintro ⟨f, hf, hn⟩
    rcases List.mem_cons.1 hf with rfl | hf
    · simp [reading, hn]
    · have hm : row.mapM float = none := by
        induction row with
        | nil => simp at hf
        | cons g row ih =>
          rcases List.mem_cons.1 hf with rfl | hf
          · simp [List.mapM_cons, hn]
          · have := ih (List.mem_cons_of_mem _ hf) hf
            cases hg : float g <;> simp [List.mapM_cons, hg, this]
      cases hc : float c <;> simp [reading, hc, hm]

/-- C99: the readings are put in the order of their times (those with equal times stay in the order of the file); those
whose position is in one of the ranges are kept, once each even if ranges overlap; the times are counted from the
earliest reading of the file, kept or not; and `t` and `X` correspond. -/
theorem C99_readings (float : List Char → Option ℚ) (ranges : List Range) (rows : List (List (List Char)))
    (readings : List Reading) (hr : List.Forall₂ (fun row r => reading float row = some r) rows readings)
    (hne : rows ≠ []) :
    ∃ (sorted : List Reading) (t0 : ℚ), sorted.Perm readings ∧ (sorted.Pairwise fun a b => a.1 ≤ b.1) ∧
      (∀ τ, sorted.filter (fun x => x.1 = τ) = readings.filter fun x => x.1 = τ) ∧
      (∃ r ∈ readings, r.1 = t0) ∧ (∀ r ∈ readings, t0 ≤ r.1) ∧
      parseValues float ranges rows =
        some (((sorted.zipIdx.filter fun x => decide (Wanted ranges x.2)).map fun x => (x.1.1 - t0, x.1.2)).unzip) := by
  have hm : rows.mapM (reading float) = some readings := by
    clear hne
    induction hr with
    | nil => rfl
    | cons h _ ih => rw [List.mapM_cons, h, ih]; rfl
  cases hs : sort readings with
  | nil =>
    exfalso
    have h1 := (sort_perm readings).length_eq
    rw [hs] at h1
    have h2 := hr.length_eq
    cases rows with
    | nil => exact hne rfl
    | cons a l => simp at h1 h2; omega
  | cons r s =>
    refine ⟨r :: s, r.1, hs ▸ sort_perm readings, hs ▸ sort_sorted readings, fun τ => hs ▸ sort_stable τ readings,
      ⟨r, (sort_perm readings).mem_iff.1 (by rw [hs]; simp), rfl⟩, ?_, ?_⟩
    · intro x hx
      have hx' : x ∈ r :: s := hs ▸ (sort_perm readings).mem_iff.2 hx
      have hp := sort_sorted readings
      rw [hs, List.pairwise_cons] at hp
      rcases List.mem_cons.1 hx' with rfl | h
      · exact le_rfl
      · exact hp.1 x h
    · unfold parseValues
      rw [hm]
      dsimp only
      rw [hs]
      dsimp only
      rw [select_eq, List.unzip_eq_map, List.map_map, List.map_map]
      rfl

/-- C99: hence the times never decrease and none is negative, and there are as many of them as rows. -/
theorem C99_times (float : List Char → Option ℚ) (ranges : List Range) (rows : List (List (List Char))) (t : List ℚ)
    (X : List (List ℚ)) (h : parseValues float ranges rows = some (t, X)) :
    t.length = X.length ∧ t.Pairwise (· ≤ ·) ∧ ∀ τ ∈ t, 0 ≤ τ := by
  unfold parseValues at h
  split at h
  · cases h
  · rename_i l _
    split at h
    · cases h
    · rename_i r s hs
      have hp := sort_sorted l
      rw [hs] at hp
      rw [Option.some.injEq, select_eq, Prod.mk.injEq] at h
      obtain ⟨rfl, rfl⟩ := h
      have hsub : ((r :: s).zipIdx.filter fun x => decide (Wanted ranges x.2)).map (fun x => x.1) |>.Sublist (r :: s) := by
        have h1 : (((r :: s).zipIdx.filter fun x => decide (Wanted ranges x.2)).map Prod.fst).Sublist
            ((r :: s).zipIdx.map Prod.fst) := List.filter_sublist.map _
        rwa [List.zipIdx_map_fst] at h1
      have he : ((r :: s).zipIdx.filter fun x => decide (Wanted ranges x.2)).map (fun x => x.1.1 - r.1) =
          (((r :: s).zipIdx.filter fun x => decide (Wanted ranges x.2)).map (fun x => x.1)).map fun x => x.1 - r.1 := by
        rw [List.map_map]; rfl
      refine ⟨by simp, ?_, ?_⟩
      · rw [he, List.pairwise_map]
        exact (hp.sublist hsub).imp fun {a b} hab => by linarith
      · rw [he]
        intro τ hτ
        obtain ⟨x, hx, rfl⟩ := List.mem_map.1 hτ
        have hx' := hsub.subset hx
        rw [List.pairwise_cons] at hp
        rcases List.mem_cons.1 hx' with rfl | h
        · simp
        · have := hp.1 x h; linarith

/-- C99: comments are left out and all other rows are kept in their order; an empty line is an error. -/
theorem C99_load (rows : List (List (List Char))) :
    load rows = if [] ∈ rows then none else some (rows.filter fun r => decide ((r.head?.bind List.head?) ≠ some '#')) := by
  induction rows with
  | nil => rfl
  | cons row rows ih =>
    cases row with
    | nil => simp [load]
    | cons c row =>
      rw [load, ih]
      by_cases hc : c.head? = some '#'
      · simp [hc]
      · by_cases hm : [] ∈ rows
        · simp [hc, hm]
        · simp [hc, hm]

/-- A conversion for the example: the number of characters. -/
def demoFloat (s : List Char) : Option ℚ := some s.length

/-- Non-vacuity of C99: five readings out of order, of which those at positions 1, 2 and 4 are wanted. -/
example : parseValues demoFloat [(1, some 2), (1, some 3), (4, none)]
    [["aaa".toList, "a".toList], ["a".toList, "aa".toList], ["aaaaaa".toList, "".toList], ["aa".toList, "aaaa".toList],
      ["aa".toList, "aaaaa".toList]] = some ([1, 1, 5], [[4], [5], [0]]) ∧
    parseValues demoFloat [] [["aaa".toList, "a".toList], ["a".toList, "aa".toList]] = some ([0, 2], [[2], [1]]) := by
  decide +kernel

example := (C99_row demoFloat "aaa".toList ["a".toList]).1 3 [1] (by decide +kernel) (.cons (by decide +kernel) .nil)

example := C99_readings demoFloat [(0, some 1)] [["aaa".toList, "a".toList], ["a".toList, "aa".toList]] [(3, [1]), (1, [2])]
  (.cons (by decide +kernel) (.cons (by decide +kernel) .nil)) (by decide)

example := C99_times demoFloat [] [["aaa".toList, "a".toList], ["a".toList, "aa".toList]] [0, 2] [[2], [1]]
  (by decide +kernel)

end TimeData
end Ade
