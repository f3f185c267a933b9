import Verif.Model.Analysis
import Mathlib.Data.List.Nodup
import Mathlib.Algebra.Order.Field.Basic
import Mathlib.Tactic.Linarith

/-!
# Properties C57, C58, C61: plot file names, column mapping, score-ratio queries
-/

set_option autoImplicit false

namespace Ade
namespace Analysis

/-! ## C57 -/

theorem digits_injective {m n : Nat} (h : digits m = digits n) : m = n := by
  have h1 := Nat.ofDigitChars_ten_toDigits (n := m)
  have h2 := Nat.ofDigitChars_ten_toDigits (n := n)
  unfold digits at h
  rw [h, h2] at h1
  exact h1.symm

/-- The name with a given count. -/
theorem names_getElem (n : Nat) (s : FileSpec) (j : Nat) (hj : j < n) :
    (names n s)[j]? = some (nextName { s with count := s.count + j }).1 := by
  induction n generalizing s j with
  | zero => omega
  | succ n ih =>
    cases j with
    | zero => simp [names]
    | succ j =>
      simp only [names, List.getElem?_cons_succ]
      rw [ih _ j (by omega)]
      have : s.count + 1 + j = s.count + (j + 1) := by omega
      simp only [nextName, this]

theorem nextName_injective (s : FileSpec) (c d : Nat)
    (h : (nextName { s with count := c }).1 = (nextName { s with count := d }).1) : c = d := by
  simp only [nextName] at h
  split at h <;> split at h
  · have h1 := List.append_cancel_right h
    have h2 := List.append_cancel_left h1
    have h3 := (List.cons.inj h2).2
    have := digits_injective h3
    omega
  · rw [List.append_assoc] at h
    have := List.append_cancel_left h
    simp at this
  · rw [List.append_assoc] at h
    have := List.append_cancel_left h
    simp at this
  · omega

/-- C57: all file names produced after setting a base path, however many, are different. -/
theorem C57_names_distinct (n : Nat) (s : FileSpec) : (names n s).Nodup := by
  have hlen : ∀ n s, (names n s).length = n := by
    intro n; induction n with
    | zero => intro s; rfl
    | succ n ih => intro s; simp [names, ih]
  rw [List.nodup_iff_injective_getElem]
  intro ⟨i, hi⟩ ⟨j, hj⟩ hij
  rw [hlen] at hi hj
  have h1 := names_getElem n s i hi
  have h2 := names_getElem n s j hj
  simp only at hij
  rw [List.getElem?_eq_getElem (by rw [hlen]; exact hi)] at h1
  rw [List.getElem?_eq_getElem (by rw [hlen]; exact hj)] at h2
  rw [hij] at h1
  have := nextName_injective s _ _ (Option.some.inj (h1.symm.trans h2))
  simp; omega

/-- C57: the first name is the plain base name with its extension. -/
theorem C57_first_name (base ext : List Char) (n : Nat) :
    (names (n+1) ⟨base, ext, 0⟩).head? = some (base ++ '.' :: ext) := rfl

example : names 3 ⟨"fit".toList, "png".toList, 0⟩ =
    ["fit.png".toList, "fit-2.png".toList, "fit-3.png".toList] := by decide +kernel

/-! ## C58 -/

/-- C58: the column of a parameter name leads back to that name. -/
theorem C58_name_round_trip (nms : List String) (name : String) (h : name ∈ nms) :
    ∃ k, name2k nms name = some k ∧ 1 ≤ k ∧ k ≤ nms.length ∧ k2name nms k = some name := by
  have hlt := List.idxOf_lt_length_iff.2 h
  refine ⟨nms.idxOf name + 1, by simp [name2k, h], by omega, by omega, ?_⟩
  simp [k2name, List.getElem?_eq_getElem hlt]

example := C58_name_round_trip ["b", "a"] "a" (by decide)

/-- C58: the name of a column leads back to the column, for distinct names. -/
theorem C58_column_round_trip (nms : List String) (hn : nms.Nodup) (k : Nat) (h1 : 1 ≤ k)
    (h2 : k ≤ nms.length) : ∃ name, k2name nms k = some name ∧ name2k nms name = some k := by
  obtain ⟨k, rfl⟩ : ∃ j, k = j + 1 := ⟨k - 1, by omega⟩
  have hlt : k < nms.length := by omega
  refine ⟨nms[k], by simp [k2name, List.getElem?_eq_getElem hlt], ?_⟩
  simp [name2k, List.getElem_mem, hn.idxOf_getElem k hlt]

example := C58_column_round_trip ["b", "a"] (by decide) 2 (by decide) (by decide)

/-- C58: an unknown name has no column, and a column outside the parameters has no name. -/
theorem C58_unknown (nms : List String) : (∀ name, name ∉ nms → name2k nms name = none) ∧
    ∀ k, nms.length < k → k2name nms k = none := by
  refine ⟨fun name h => by simp [name2k, h], fun k h => ?_⟩
  cases k with
  | zero => rfl
  | succ k => simp [k2name]; omega

example : (["b", "a"] : List String).Nodup ∧ name2k ["b", "a"] "a" = some 2 := by decide +kernel

/-! ## C61 -/

/-- The records a membership keyword asks for: all, current members, former members (neither current nor
never members), those that never were members. -/
def Wanted (Kp Kn : Finset Nat) : Mode → Nat → Prop
  | .all, _ => True
  | .inPop, k => k ∈ Kp
  | .former, k => k ∉ Kp ∧ k ∉ Kn
  | .never, k => k ∈ Kn

/-- C61 (for a positive best score): a query selects exactly the records of the requested membership whose
score is at most `maxRatio` times the best score in the history. -/
theorem C61_selects_by_ratio_partial (sse : Nat → ℚ) (k0 : Nat) (ks : List Nat) (Kp Kn : Finset Nat)
    (m : Mode) (maxRatio : ℚ) (hpos : 0 < sse k0) (k : Nat) :
    ∃ R, queryRows sse (k0 :: ks) Kp Kn m maxRatio = some R ∧
      (k ∈ R ↔ k ∈ k0 :: ks ∧ Wanted Kp Kn m k ∧ sse k ≤ maxRatio * sse k0) := by
  refine ⟨_, rfl, ?_⟩
  have e : k ∈ selectRows (k0 :: ks) Kp Kn m ↔ k ∈ k0 :: ks ∧ Wanted Kp Kn m k := by
    cases m <;> simp [selectRows, Wanted]
  rw [List.mem_filter, e, and_assoc]
  simp only [withinRatio, ne_of_gt hpos, if_false, decide_eq_true_eq, div_le_iff₀ hpos]

example := C61_selects_by_ratio_partial (fun k => k + 1) 0 [1, 2, 5] {1} {2} .inPop 3 (by norm_num) 1

/-- C61: with a positive best score and a ratio of at least one, an unrestricted query includes the best
record, and the records stay in order. -/
theorem C61_best_included (sse : Nat → ℚ) (k0 : Nat) (ks : List Nat) (Kp Kn : Finset Nat) (maxRatio : ℚ)
    (hpos : 0 < sse k0) (hr : 1 ≤ maxRatio) :
    ∃ R, queryRows sse (k0 :: ks) Kp Kn .all maxRatio = some R ∧ R.head? = some k0 ∧
      R.Sublist (k0 :: ks) := by
  refine ⟨_, rfl, ?_, List.filter_sublist⟩
  have : withinRatio (sse k0) (sse k0) maxRatio = true := by
    simp [withinRatio, ne_of_gt hpos, hr]
  simp [selectRows, this]

example := C61_best_included (fun k => k + 1) 0 [1, 2, 5] {1} {2} 3 (by norm_num) (by norm_num)

/-- C61 fails when the best score is zero (a perfect fit): every query is empty, even the best record is left
out. -/
theorem C61_perfect_score_selects_nothing (sse : Nat → ℚ) (k0 : Nat) (ks : List Nat) (Kp Kn : Finset Nat)
    (m : Mode) (maxRatio : ℚ) (h0 : sse k0 = 0) :
    queryRows sse (k0 :: ks) Kp Kn m maxRatio = some [] := by
  simp [queryRows, withinRatio, h0]

example := C61_perfect_score_selects_nothing (fun k => k) 0 [1, 2, 5] {1} {2} .all 3 (by norm_num)

/-- C61: the keywords select one mode, in order of precedence. -/
theorem C61_mode_precedence (b c : Bool) : modeOf true b c = .inPop ∧ modeOf false true c = .former ∧
    modeOf false false true = .never ∧ modeOf false false false = .all := by
  simp [modeOf]

example : queryRows (fun k => k + 1) [0, 1, 2, 5] {1} {2} .all 3 = some [0, 1, 2] := by decide +kernel

end Analysis
end Ade
