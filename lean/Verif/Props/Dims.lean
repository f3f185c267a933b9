import Verif.Model.Dims
import Mathlib.Tactic.NormNum
import Mathlib.Tactic.Linarith
import Mathlib.Algebra.Order.Field.Basic

/-!
# C108: the dimensions of figures
-/

set_option autoImplicit false

namespace Ade
namespace Dims

/-! ## Specification -/

/-- The text that asks for a width of `w` pixels. -/
def askW (w : ℕ) : Str := (toString w).toList

/-- The text that asks for a width of `w` and a height of `h` pixels. -/
def askWH (w h : ℕ) : Str := (toString w).toList ++ 'x' :: (toString h).toList

/-- `float` reads decimal numbers and `DPI` is positive. -/
structure Env.Good (e : Env) : Prop where
  reads : ∀ n : ℕ, e.float (toString n).toList = some (n : ℚ)
  dpi : 0 < e.dpi

/-! ## Reading -/

theorem digit_ne_x (n : ℕ) : 'x' ∉ (toString n).toList := by
  intro h
  rw [show toString n = Nat.repr n from rfl, Nat.toList_repr] at h
  have := Nat.isDigit_of_mem_toDigits (b := 10) (by norm_num) (by norm_num) h
  revert this
  decide

theorem askW_ne_nil (n : ℕ) : (toString n).toList ≠ [] := by
  rw [show toString n = Nat.repr n from rfl, Nat.toList_repr]
  exact Nat.toDigits_ne_nil

theorem splitX_plain {s : Str} (h : 'x' ∉ s) : splitX s = [s] := by
  induction s with
  | nil => rfl
  | cons c s ih =>
    simp only [List.mem_cons, not_or] at h
    simp only [splitX, if_neg (Ne.symm h.1), ih h.2]

theorem splitX_append {s : Str} (h : 'x' ∉ s) (t : Str) : splitX (s ++ 'x' :: t) = s :: splitX t := by
  induction s with
  | nil => simp [splitX]
  | cons c s ih =>
    simp only [List.mem_cons, not_or] at h
    simp only [List.cons_append, splitX, if_neg (Ne.symm h.1), ih h.2]

/-- C108: what is asked for in pixels is read as inches; the height is left open if only a width is given,
and without dimensions the width is 12 inches. -/
theorem C108_read (e : Env) (he : e.Good) (w h : ℕ) :
    widthHeight e (askW w) = some (w / e.dpi, none) ∧
    widthHeight e (askWH w h) = some (w / e.dpi, some (h / e.dpi)) ∧
    widthHeight e [] = some (e.defaultWidth, none) := by
  refine ⟨?_, ?_, rfl⟩
  · simp only [widthHeight, askW, if_neg (askW_ne_nil w), if_neg (digit_ne_x w), inches, he.reads,
      Option.map_some]
  · have hx : 'x' ∈ askWH w h := by simp [askWH]
    have hn : askWH w h ≠ [] := by simp [askWH]
    simp only [widthHeight, if_neg hn, if_pos hx]
    rw [askWH, splitX_append (digit_ne_x w), splitX_plain (digit_ne_x h)]
    simp only [inches, he.reads, Option.map_some, Option.bind_some]

theorem pass_pos {x : ℚ} (h : 0 < x) : pass (some x) = some x := by
  have : ¬ (some x = some 0) := by
    intro hh; rw [Option.some.inj hh] at h; exact lt_irrefl _ h
  simp only [pass, if_neg this]

/-- C108: `pv` with `-d WxL` gives figures of that many pixels, in windows and in files. -/
theorem C108_pv (e : Env) (he : e.Good) (file : Bool) (w h Nc Nr : ℕ) (hw : 0 < w) (hh : 0 < h) :
    pv e file (askWH w h) Nc Nr = some (some (w / e.dpi), some (h / e.dpi)) := by
  obtain ⟨_, hr, _⟩ := C108_read e he w h
  have w0 : (0 : ℚ) < w / e.dpi := div_pos (by exact_mod_cast hw) he.dpi
  have h0 : (0 : ℚ) < h / e.dpi := div_pos (by exact_mod_cast hh) he.dpi
  have hn : askWH w h ≠ [] := by simp [askWH]
  cases file with
  | true =>
    simp only [pv, setFile, hr, Option.map_some, if_true, Option.bind_some, makePlotter, pass_pos w0,
      pass_pos h0]
  | false =>
    simp only [pv, Bool.false_eq_true, if_false, Option.bind_some, makePlotter, if_neg hn, hr,
      Option.map_some, pass_pos w0, pass_pos h0]

/-- C108: in a file the height is chosen if not given, at most 0.7 of the width, and in proportion to the rows
and columns of subplots; it is positive. -/
theorem C108_file_height (e : Env) (he : e.Good) (w Nc Nr : ℕ) (hw : 0 < w) (hc : 0 < Nc) (hr : 0 < Nr) :
    ∃ h : ℚ, pv e true (askW w) Nc Nr = some (some (w / e.dpi), some h) ∧ 0 < h ∧
      h ≤ 7 / 10 * (w / e.dpi) ∧ h * Nc ≤ Nr * (w / e.dpi) ∧
      (h = 7 / 10 * (w / e.dpi) ∨ h * Nc = Nr * (w / e.dpi)) := by
  obtain ⟨hrd, _, _⟩ := C108_read e he w 0
  have w0 : (0 : ℚ) < w / e.dpi := div_pos (by exact_mod_cast hw) he.dpi
  have c0 : (0 : ℚ) < Nc := by exact_mod_cast hc
  have r0 : (0 : ℚ) < Nr := by exact_mod_cast hr
  have m0 : (0 : ℚ) < min (7 / 10) ((Nr : ℚ) / Nc) := lt_min (by norm_num) (div_pos r0 c0)
  have hp : (0 : ℚ) < w / e.dpi * min (7 / 10) ((Nr : ℚ) / Nc) := mul_pos w0 m0
  have hdiv : (Nr : ℚ) / Nc * Nc = Nr := div_mul_cancel₀ _ (ne_of_gt c0)
  refine ⟨w / e.dpi * min (7 / 10) ((Nr : ℚ) / Nc), ?_, hp, ?_, ?_, ?_⟩
  · simp only [pv, setFile, hrd, Option.map_some, if_true, Option.bind_some, makePlotter, pass_pos w0,
      pass_pos hp]
  · rw [mul_comm]
    exact mul_le_mul_of_nonneg_right (min_le_left _ _) (le_of_lt w0)
  · calc w / e.dpi * min (7 / 10) ((Nr : ℚ) / Nc) * Nc
        ≤ w / e.dpi * ((Nr : ℚ) / Nc) * Nc :=
          mul_le_mul_of_nonneg_right (mul_le_mul_of_nonneg_left (min_le_right _ _) (le_of_lt w0))
            (le_of_lt c0)
      _ = Nr * (w / e.dpi) := by rw [mul_assoc, hdiv, mul_comm]
  · rcases min_choice (7 / 10) ((Nr : ℚ) / Nc) with hm | hm
    · left; rw [hm, mul_comm]
    · right; rw [hm, mul_assoc, hdiv, mul_comm]

/-- C108, where it ends: without a file, `makePlotter` honors its keywords. -/
theorem C108_window_partial (e : Env) (he : e.Good) (a : An) (ha : a.fileSpec = none) (k : Keys) (w h Nc Nr : ℕ)
    (hw : 0 < w) (hh : 0 < h) (hk : k.dims = askWH w h) :
    makePlotter e a k Nc Nr = some (some (w / e.dpi), some (h / e.dpi)) := by
  obtain ⟨_, hr, _⟩ := C108_read e he w h
  have w0 : (0 : ℚ) < w / e.dpi := div_pos (by exact_mod_cast hw) he.dpi
  have h0 : (0 : ℚ) < h / e.dpi := div_pos (by exact_mod_cast hh) he.dpi
  have hn : askWH w h ≠ [] := by simp [askWH]
  simp only [makePlotter, ha, hk, if_neg hn, hr, Option.map_some, pass_pos w0, pass_pos h0]

/-- C108, disagreement: the keyword `dims` of `makePlotter` (and so of `plot` and `plotCorrelated`) is
documented as the dimensions of PNG files, but when a file is written no keyword has any effect; not even
malformed dimensions are noticed. -/
theorem C108_keywords_ignored (e : Env) (a : An) (ha : a.fileSpec ≠ none) (k k' : Keys) (Nc Nr : ℕ) :
    makePlotter e a k Nc Nr = makePlotter e a k' Nc Nr := by
  cases hf : a.fileSpec with
  | none => exact absurd hf ha
  | some p => simp only [makePlotter, hf]

/-- C108, disagreement: an `Analysis` constructed with a file path, which takes no dimensions
(ade/history.py:103-109), writes files of the default width whatever is asked for. -/
theorem C108_constructor_default (e : Env) (he : e.Good) (hd : 0 < e.defaultWidth) (a : An)
    (ha : setFile e [] = some a) (w h Nc Nr : ℕ) (hne : (w : ℚ) / e.dpi ≠ e.defaultWidth) :
    ∃ x y, makePlotter e a { dims := askWH w h } Nc Nr = some (some x, y) ∧ x ≠ w / e.dpi := by
  obtain ⟨_, _, hr⟩ := C108_read e he w h
  simp only [setFile, hr, Option.map_some, Option.some.injEq] at ha
  subst ha
  exact ⟨e.defaultWidth, _, by simp only [makePlotter, pass_pos hd]; rfl, Ne.symm hne⟩

/-- C108: a window gets the width and height given as keywords if no `dims` are given, and without these the default of
the plotter. -/
theorem C108_window_keywords (e : Env) (a : An) (ha : a.fileSpec = none) (w h : ℚ) (hw : 0 < w) (hh : 0 < h) (Nc Nr : ℕ) :
    makePlotter e a { width := some w, height := some h } Nc Nr = some (some w, some h) ∧
      makePlotter e a {} Nc Nr = some (none, none) := by
  refine ⟨?_, ?_⟩
  · simp only [makePlotter, ha, if_true, pass_pos hw, pass_pos hh]
  · simp [makePlotter, ha, pass]

/-! ## Cases -/

example := C108_window_keywords ⟨fun _ => none, 100, 12⟩ ⟨none⟩ rfl 8 5 (by norm_num) (by norm_num) 2 2

/-- `float` on decimal digits, 100 dots per inch, 12 inches. -/
def demoEnv : Env :=
  ⟨fun s => if s ≠ [] ∧ s.all Char.isDigit then some (Nat.ofDigitChars 10 s 0 : ℚ) else none, 100, 12⟩

theorem demoEnv_good : demoEnv.Good := by
  refine ⟨fun n => ?_, by norm_num [demoEnv]⟩
  have hd : ((toString n).toList.all Char.isDigit) = true := by
    rw [List.all_eq_true]
    intro c hc
    rw [show toString n = Nat.repr n from rfl, Nat.toList_repr] at hc
    exact Nat.isDigit_of_mem_toDigits (by norm_num) (by norm_num) hc
  have hv : Nat.ofDigitChars 10 (toString n).toList 0 = n := by
    rw [show toString n = Nat.repr n from rfl, Nat.toList_repr]
    simp
  simp only [demoEnv, hd, hv, askW_ne_nil n, ne_eq, not_false_eq_true, and_self, if_true]

example : widthHeight demoEnv "1200x800".toList = some (12, some 8) ∧
    widthHeight demoEnv "600".toList = some (6, none) ∧ widthHeight demoEnv "1x2x3".toList = none ∧
    widthHeight demoEnv "x".toList = none := by decide +kernel

example : askWH 1200 800 = "1200x800".toList ∧ askW 600 = "600".toList := by decide +kernel

example : pv demoEnv true "1200x800".toList 2 2 = some (some 12, some 8) ∧
    pv demoEnv true "1000".toList 3 1 = some (some 10, some (10 / 3)) ∧
    pv demoEnv true "1000".toList 2 2 = some (some 10, some 7) ∧
    pv demoEnv false "1000".toList 2 2 = some (some 10, none) := by decide +kernel

/-- Constructed with a file path and asked for 600x400: 1200 pixels wide and 840 high. -/
example : (setFile demoEnv []).bind (fun a => makePlotter demoEnv a { dims := "600x400".toList } 2 2) =
    some (some 12, some (42 / 5)) := by decide +kernel

example := C108_read demoEnv demoEnv_good 1200 800

example := C108_pv demoEnv demoEnv_good true 1200 800 2 2 (by decide) (by decide)

example := C108_file_height demoEnv demoEnv_good 1000 3 1 (by decide) (by decide) (by decide)

example := C108_window_partial demoEnv demoEnv_good { fileSpec := none } rfl { dims := askWH 600 400 } 600 400 2 2
  (by decide) (by decide) rfl

example := C108_constructor_default demoEnv demoEnv_good (by decide) ⟨some (12, none)⟩ rfl 600 400 2 2 (by decide +kernel)

example := C108_keywords_ignored demoEnv ⟨some (12, none)⟩ (by decide) { dims := askWH 600 400 } { width := some 3 } 2 2

end Dims
end Ade
