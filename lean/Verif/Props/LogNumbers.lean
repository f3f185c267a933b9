import Verif.Model.LogNumbers
import Verif.Props.Format
import Verif.Props.LggMain

/-!
# C129: what the log grepper shows about the individuals of a run

The numbers of a run go through two formats: `SSE={:.4f}` and `name={:g}` in the log, and `{:0.5g}` in the table of the
log grepper.  Here the results about reading a log (C121) and about printed numbers (C128) are put together.
-/

set_option autoImplicit false

namespace Ade
namespace LogNumbers

open Specs (parseValue)
open Format
open LogText hiding suffix_stars
open LggMain hiding suffix_stars
open LggNames

/-! ### The specification -/

/-- `float(text)`, `none` for an exception. -/
def float (s : Str) : Option ℚ :=
  match parseValue s with
  | .num q => some q
  | _ => none

/-- A word that tells a score. -/
def TellsScore (q : ℚ) (w : Str) : Prop := ∃ r, float w = some r ∧ |r - q| ≤ (2 + q) / 20000

/-- A word that tells a value: a number with a relative error of less than 0.006%, and one star if the value is in the
lowest twentieth of the range, two if it is in the highest. -/
def TellsValue (p : Param) (v : ℚ) (w : Str) : Prop :=
  ∃ (n : Str) (k : ℕ) (r : ℚ), w = n ++ List.replicate k '*' ∧ float n = some r ∧ |r - v| ≤ 6 / 100000 * |v| ∧
    (k = 1 ↔ v < p.min + (p.max - p.min) / 20) ∧ (k = 2 ↔ p.max - (p.max - p.min) / 20 < v) ∧ k ≤ 2

/-- A row of the table that tells an individual. -/
def TellsInd (columns : List Param) (i : Ind) (words : List Str) : Prop :=
  ∃ (w : Str) (ws : List Str), words = w :: ws ∧ TellsScore i.score w ∧
    List.Forall₂ (fun p w => TellsValue p (i.val p.name) w) columns ws

/-- Which individuals are told, in which order, as far as scores can be told apart in the log. -/
structure Told (all shown : List Ind) : Prop where
  some : shown.Subperm all
  order : shown.Pairwise fun a b => b.score ≤ a.score + 1 / 10000
  ratio : ∀ a ∈ shown, ∀ b ∈ all, a.score ≤ 2 * b.score + 3 / 20000
  limit : shown.length ≤ 40
  best : all.length ≤ 40 → ∃ b ∈ shown.getLast?, ∀ a ∈ all, b.score ≤ a.score + 1 / 10000

/-! ### Lines of an individual do not look like the final table -/

theorem not_final {w r : Str} (hw : IsWord w) (he : '=' ∈ w) : ¬ "Final population".toList <+: strip (w ++ r) := by
  intro h
  have hs : strip (w ++ r) <+: w ++ r := by
    have h1 : (w ++ r).dropWhile isSpace = w ++ r := by
      obtain ⟨hne, hsp⟩ := hw
      cases w with
      | nil => exact absurd rfl hne
      | cons c w => simp [hsp c (by simp)]
    unfold strip
    rw [h1]
    have := List.dropWhile_suffix isSpace (l := (w ++ r).reverse)
    have := List.reverse_prefix.2 this
    rwa [List.reverse_reverse] at this
  have h2 : "Final population".toList <+: w ++ r := h.trans hs
  rw [show "Final population".toList = "Final".toList ++ ' ' :: "population".toList from rfl] at h2
  rcases Nat.lt_or_ge 5 w.length with hl | hl
  · have h3 : "Final".toList ++ [' '] <+: w := by
      have : "Final".toList ++ [' '] <+: w ++ r := by
        refine List.IsPrefix.trans ?_ h2
        exact ⟨"population".toList, by simp⟩
      exact List.prefix_of_prefix_length_le this (List.prefix_append _ _) hl
    have := hw.2 ' ' (h3.subset (by simp))
    revert this; decide
  · have h3 : w <+: "Final".toList := by
      refine List.prefix_of_prefix_length_le (List.prefix_append w r) ?_ hl
      exact (List.prefix_append _ _).trans h2
    have := h3.subset he
    revert this; decide

theorem mem_closeLast {l : Str} {ls : List Str} (h : l ∈ closeLast ls) : ∃ l' ∈ ls, ∃ t, l = l' ++ t := by
  induction ls with
  | nil => cases h
  | cons a ls ih =>
    cases ls with
    | nil => exact ⟨a, by simp, ['>'], by simpa [closeLast] using h⟩
    | cons b ls =>
      rcases List.mem_cons.1 h with rfl | h
      · exact ⟨l, by simp, [], by simp⟩
      · obtain ⟨l', h1, t, h2⟩ := ih h
        exact ⟨l', by simp [h1], t, h2⟩

theorem repr_not_final (fmt : ℚ → Str) (sse : Str) (pvs : List (Param × ℚ)) (hsse : sse ≠ [] ∧ ∀ c ∈ sse, isNumChar c = true)
    (hpv : ∀ pv ∈ pvs, IsName pv.1.name ∧ IsNumber (fmt pv.2)) (l : Str) (hl : l ∈ reprIndividual fmt sse pvs) :
    ¬ "Final population".toList <+: strip l := by
  have hws : ∀ w ∈ sseWord sse :: (sortedNamerator pvs).map (part fmt), IsWord w ∧ '=' ∈ w := by
    intro w hw
    rcases List.mem_cons.1 hw with rfl | hw
    · refine ⟨⟨by simp [sseWord], ?_⟩, by simp [sseWord]⟩
      intro c hc
      rcases List.mem_append.1 hc with hc | hc
      · have : ∀ c ∈ ['S', 'S', 'E', '='], isSpace c = false := by decide
        exact this c hc
      · by_contra hsp
        have := isNumChar_of_end (.inl (by simpa using hsp))
        rw [hsse.2 c hc] at this; cases this
    · obtain ⟨pv, hm, rfl⟩ := List.mem_map.1 hw
      obtain ⟨h1, h2⟩ := hpv pv ((sorted_perm pvs).mem_iff.1 hm)
      refine ⟨⟨by simp [part], ?_⟩, by simp [part]⟩
      intro c hc
      simp only [part, stringValue, List.mem_append] at hc
      rcases hc with (hc | hc) | hc | hc
      · exact (name_word h1).1.2 c hc
      · rw [List.mem_singleton.1 hc]; decide
      · exact (number_word h2).1.2 c hc
      · rw [LogText.suffix_stars _ _ c hc]; decide
  have hfl := wrapAux_flatten maxLineLength (sseWord sse :: (sortedNamerator pvs).map (part fmt)).length
    (sseWord sse :: (sortedNamerator pvs).map (part fmt)) (by simp)
  have hnn := wrapAux_ne_nil maxLineLength (sseWord sse :: (sortedNamerator pvs).map (part fmt)).length
    (sseWord sse :: (sortedNamerator pvs).map (part fmt))
  have hgr : ∀ g ∈ wrapAux maxLineLength (sseWord sse :: (sortedNamerator pvs).map (part fmt)).length
      (sseWord sse :: (sortedNamerator pvs).map (part fmt)), ∃ w r, join [' '] g = w ++ r ∧ IsWord w ∧ '=' ∈ w := by
    intro g hg
    cases hgc : g with
    | nil => exact absurd hgc (hnn g hg)
    | cons w ws =>
      obtain ⟨h1, h2⟩ := hws w (by rw [← hfl]; exact List.mem_flatten.2 ⟨g, hg, by simp [hgc]⟩)
      cases ws with
      | nil => exact ⟨w, [], by simp [join], h1, h2⟩
      | cons w' ws => exact ⟨w, [' '] ++ join [' '] (w' :: ws), by simp [join], h1, h2⟩
  unfold reprIndividual prettyValues fill at hl
  simp only [List.cons_append, List.nil_append] at hl
  generalize wrapAux maxLineLength (sseWord sse :: (sortedNamerator pvs).map (part fmt)).length
      (sseWord sse :: (sortedNamerator pvs).map (part fmt)) = gs at hl hgr
  cases gs with
  | nil =>
    have : l = ['<', '>'] := by simpa [bracket] using hl
    subst this; decide
  | cons g gs =>
    rw [List.map_cons, bracket_eq] at hl
    obtain ⟨l', h1, t, rfl⟩ := mem_closeLast hl
    rcases List.mem_cons.1 h1 with rfl | h1
    · obtain ⟨w, r, e, hw, he⟩ := hgr g (by simp)
      rw [e, show '<' :: (w ++ r) ++ t = ('<' :: w) ++ (r ++ t) by simp]
      refine not_final ⟨by simp, ?_⟩ (by simp [he])
      intro c hc
      rcases List.mem_cons.1 hc with rfl | hc
      · decide
      · exact hw.2 c hc
    · obtain ⟨g', hg', rfl⟩ := List.mem_map.1 h1
      obtain ⟨w, r, e, hw, he⟩ := hgr g' (by simp [hg'])
      rw [e, List.append_assoc]
      exact not_final hw he

/-! ### C129 -/

theorem float_general (P : ℕ) (hP : 0 < P) (q : ℚ) : float (general P q) = some (readBack P q) := by
  simp only [float, general_reads P hP q]

/-- A score as it is read from the log. -/
def score4 (q : ℚ) : ℚ := sgn q * (Reporter.roundHalfEven (|q| * 10 ^ 4) / 10 ^ 4)

theorem float_fixed (q : ℚ) : float (fixed 4 q) = some (score4 q) := by
  simp only [float, fixed_value 4 (by norm_num) q, score4]

theorem score4_near (q : ℚ) : |score4 q - q| ≤ 1 / 20000 := by
  obtain ⟨r, k, h1, -, h2⟩ := C128_fixed 4 (by norm_num) q
  rw [fixed_value 4 (by norm_num)] at h1
  injection h1 with h1
  rw [← h1] at h2
  refine h2.trans (by norm_num)

theorem score4_nonneg {q : ℚ} (h : 0 ≤ q) : 0 ≤ score4 q := by
  unfold score4 sgn
  rw [if_neg (not_lt.2 h)]
  positivity

theorem tells_score {q : ℚ} (h : 0 ≤ q) : TellsScore q (general 5 (score4 q)) := by
  refine ⟨_, float_general 5 (by norm_num) _, ?_⟩
  have h1 := readBack_relative 5 (by norm_num) (score4 q)
  have h2 := score4_near q
  rw [abs_of_nonneg (score4_nonneg h)] at h1
  rw [abs_le] at *
  norm_num at h1
  constructor <;> linarith [h1.1, h1.2, h2.1, h2.2]

theorem tells_value (p : Param) (hp : p.min < p.max) (v : ℚ) :
    TellsValue p v (general 5 (readBack 6 v) ++ LogText.suffix p v) := by
  have hd : 0 < p.max - p.min := by linarith
  refine ⟨general 5 (readBack 6 v), (LogText.suffix p v).length, readBack 5 (readBack 6 v), ?_,
    float_general 5 (by norm_num) _, ?_, ?_, ?_, ?_⟩
  · rw [(LggMain.suffix_stars p v).2]
  · have h1 := readBack_relative 5 (by norm_num) (readBack 6 v)
    have h2 := readBack_relative 6 (by norm_num) v
    have h3 : |readBack 6 v| ≤ |v| + 5 / 10 ^ 6 * |v| := by
      have := abs_add_le v (readBack 6 v - v)
      rw [show v + (readBack 6 v - v) = readBack 6 v by ring] at this
      linarith
    have h4 := abs_add_le (readBack 5 (readBack 6 v) - readBack 6 v) (readBack 6 v - v)
    rw [show readBack 5 (readBack 6 v) - readBack 6 v + (readBack 6 v - v) = readBack 5 (readBack 6 v) - v by ring] at h4
    have h5 := abs_nonneg v
    norm_num at h1 h2 h3
    linarith
  · rw [C79_stars p hp v]
    split_ifs with a b
    · simp [a]
    · simp [a]
    · simp [a]
  · rw [C79_stars p hp v]
    split_ifs with a b
    · simp; linarith
    · simp [b]
    · simpa using b
  · rw [C79_stars p hp v]
    split_ifs <;> simp

/-- C129: for a log of printed individuals, with anything else in between that neither has an SSE nor begins the final
table, the log grepper prints a table with a column for each parameter asked for, whose rows tell individuals of the
run: the score to about four decimals and digits, the values to 0.006%, the stars for the true values.  The rows are in
order of the scores as far as the log tells them apart, and the best individual is in the last row. -/
theorem C129_table (argsort : List TRow → List TRow) (hsort : Sorts argsort) (expanduser : Str → Str)
    (files : Str → Option (List Str)) (argv : List Str) (path : Str) (patterns : List Str) (ha : Asks argv path patterns)
    (hpat : patterns ≠ []) (params : List Param) (hnd : (params.map Param.name).Nodup)
    (hparam : ∀ p ∈ params, IsName p.name ∧ p.name.length ≤ 100 ∧ p.min < p.max)
    (items : List (List Str × Ind)) (hne : items ≠ [])
    (hnoise : ∀ x ∈ items, ∀ l ∈ x.1, Noise l ∧ ¬ "Final population".toList <+: strip l)
    (hscore : ∀ x ∈ items, 0 ≤ x.2.score)
    (hval : ∀ x ∈ items, ∀ p ∈ params, x.2.val p.name = 0 ∨
      (10 : ℚ) ^ (-99 : ℤ) ≤ |x.2.val p.name| ∧ |x.2.val p.name| < 10 ^ (99 : ℤ))
    (hfile : files (expanduser path) = some (logOf (general 6) params (items.map fun x => (x.1, x.2.member)))) :
    ∃ (lines : List Str) (columns : List Param) (shown : List Ind) (rows : List (List Str)),
      main float (general 5) argsort expanduser files argv = .table lines ∧
      (∀ p, p ∈ columns ↔ p ∈ params ∧ ∃ a ∈ patterns, GlobMatch (parseGlob a.length a) p.name) ∧
      (columns.map Param.name).Pairwise (· < ·) ∧
      Told (items.map Prod.snd) shown ∧
      List.Forall₂ (TellsInd columns) shown rows ∧
      IsTable (columns.map Param.name) rows lines := by
  have hread := fun q => C128_readable 6 (by norm_num) q
  have hread4 := fun q => C128_readable 4 (by norm_num) q
  have hread5 := fun q => C128_readable 5 (by norm_num) q
  have hfix : ∀ q, fixed 4 q ≠ [] ∧ ∀ c ∈ fixed 4 q, isNumChar c = true := fun q =>
    ⟨(number_word (hread4 q).2.1).1.1, (hread4 q).2.2.2⟩
  -- the score as a function of the printed member
  obtain ⟨lines, columns, shown, h1, h2, h3, h4, h5⟩ := C121_individuals float (general 5)
    (fun v => (number_word (hread5 v).1).1) argsort hsort expanduser files argv path patterns ha hpat (general 6) params hnd
    (items.map fun x => (x.1, x.2.member)) (by simpa using hne) (fun m => (float m.sse4).getD 0) (readBack 6)
    (by
      intro x hx l hl
      obtain ⟨y, hy, rfl⟩ := List.mem_map.1 hx
      exact (hnoise y hy l hl).1)
    (by
      intro x hx
      obtain ⟨y, hy, rfl⟩ := List.mem_map.1 hx
      refine ⟨(hfix _).1, (hfix _).2, ?_⟩
      simp only [Ind.member, float_fixed, Option.getD_some])
    (by
      intro x hx p hp
      obtain ⟨y, hy, rfl⟩ := List.mem_map.1 hx
      obtain ⟨a1, a2, -⟩ := hparam p hp
      refine ⟨a1, (hread _).1, ?_⟩
      have b1 := C128_width 6 (by norm_num) (y.2.val p.name) (hval y hy p hp)
      have b2 := (LggMain.suffix_stars p (y.2.val p.name)).1
      simp only [Ind.member, part, stringValue, List.length_append, List.length_cons, List.length_nil, maxLineLength]
      split_ifs at b1 <;> omega)
    (by
      intro x hx p hp
      exact float_general 6 (by norm_num) _)
    hfile
    (by
      intro l hl
      obtain ⟨x, hx, hl⟩ := List.mem_flatMap.1 hl
      obtain ⟨y, hy, rfl⟩ := List.mem_map.1 hx
      simp only [List.mem_append, List.mem_singleton] at hl
      rcases hl with (hl | hl) | hl
      · exact (hnoise y hy l hl).2
      · refine repr_not_final _ _ _ (hfix _) ?_ l hl
        intro pv hpv
        obtain ⟨p, hp, rfl⟩ := List.mem_map.1 hpv
        exact ⟨(hparam p hp).1, (hread _).1⟩
      · subst hl; decide)
  -- the individuals behind the members shown
  have hmap : (items.map fun x => (x.1, x.2.member)).map Prod.snd = (items.map Prod.snd).map Ind.member := by
    rw [List.map_map, List.map_map]; rfl
  rw [hmap] at h4
  obtain ⟨inds, hi1, hi2⟩ : ∃ inds : List Ind, inds.Subperm (items.map Prod.snd) ∧ shown = inds.map Ind.member := by
    obtain ⟨l, hl1, hl2⟩ := h4.some
    obtain ⟨a, ha1, rfl⟩ := List.sublist_map_iff.1 hl2
    have hf : List.Forall₂ (fun (i : Ind) m => m = i.member) a (a.map Ind.member) := by
      rw [List.forall₂_map_right_iff]; exact List.forall₂_same.2 fun _ _ => rfl
    obtain ⟨b, hb1, hb2⟩ := perm_forall₂ hl1 hf
    refine ⟨b, ⟨a, hb1.symm, ha1⟩, ?_⟩
    clear hb1 h5 h4 hl1 hl2
    induction hb2 with
    | nil => rfl
    | cons h _ ih => simp [h, ih]
  subst hi2
  have hs : ∀ i : Ind, (float i.member.sse4).getD 0 = score4 i.score := by
    intro i; simp only [Ind.member, float_fixed, Option.getD_some]
  have hsc : ∀ i ∈ items.map Prod.snd, 0 ≤ i.score := by
    intro i hi
    obtain ⟨x, hx, rfl⟩ := List.mem_map.1 hi
    exact hscore x hx
  refine ⟨lines, columns, inds, _, h1, h2, h3, ⟨hi1, ?_, ?_, ?_, ?_⟩, ?_, h5⟩
  · have := h4.order
    rw [List.pairwise_map] at this
    refine this.imp ?_
    intro a b hab
    rw [hs, hs] at hab
    have ha := abs_le.1 (score4_near a.score)
    have hb := abs_le.1 (score4_near b.score)
    linarith [ha.2, hb.1]
  · intro a ha b hb
    have := h4.ratio (by
      intro m hm
      obtain ⟨i, hi, rfl⟩ := List.mem_map.1 hm
      rw [hs]; exact score4_nonneg (hsc i hi)) _ (List.mem_map_of_mem ha) _ (List.mem_map_of_mem hb)
    rw [hs, hs] at this
    have ha := abs_le.1 (score4_near a.score)
    have hb := abs_le.1 (score4_near b.score)
    linarith [ha.1, hb.2]
  · simpa using h4.limit
  · intro hl
    obtain ⟨m, hm, hbest⟩ := h4.best (by simpa using hl)
    rw [List.getLast?_map, Option.mem_def, Option.map_eq_some_iff] at hm
    obtain ⟨i, hi, rfl⟩ := hm
    refine ⟨i, hi, fun a ha => ?_⟩
    have := hbest _ (List.mem_map_of_mem ha)
    rw [hs, hs] at this
    have ha := abs_le.1 (score4_near a.score)
    have hb := abs_le.1 (score4_near i.score)
    linarith [ha.2, hb.1]
  · rw [List.forall₂_map_right_iff, List.forall₂_map_right_iff]
    refine List.forall₂_same.2 fun i hi => ?_
    refine ⟨_, _, rfl, ?_, ?_⟩
    · rw [hs]; exact tells_score (hsc i (hi1.subset hi))
    · rw [List.forall₂_map_right_iff]
      refine List.forall₂_same.2 fun p hp => ?_
      exact tells_value p (hparam p ((h2 p).1 hp).1).2.2 _

/-! ### With the final table -/

theorem readBack_idem (P : ℕ) (hP : 0 < P) (q : ℚ) : readBack P (readBack P q) = readBack P q := by
  have h := C128_stable P hP q _ (general_reads P hP q)
  have h1 := general_reads P hP (readBack P q)
  rw [h, general_reads P hP q] at h1
  injection h1 with h1
  exact h1.symm

/-- What an entry read from the log says about an individual. -/
structure Near (params : List Param) (i : Ind) (y : ℚ × PD) : Prop where
  names : ∀ n, n ∈ y.2.map Item.name ↔ n ∈ params.map Param.name
  nonneg : 0 ≤ y.1
  close : |y.1 - i.score| ≤ (1 + i.score) / 20000
  score : TellsScore i.score (general 5 y.1)
  value : ∀ p ∈ params, ∃ it r, get y.2 p.name = some it ∧ float it.value = some r ∧ it.stars.length ≤ 2 ∧
    TellsValue p (i.val p.name) (general 5 r ++ List.replicate it.stars.length '*')

theorem near_log {params : List Param} (hparam : ∀ p ∈ params, p.min < p.max) {i : Ind} (h0 : 0 ≤ i.score) {y : ℚ × PD}
    (h1 : y.1 = score4 i.score) (h2 : Describes (general 6) params i.member y.2) : Near params i y where
  names n := h2.1.mem_iff
  nonneg := by rw [h1]; exact score4_nonneg h0
  close := by
    rw [h1]
    have := score4_near i.score
    linarith
  score := by rw [h1]; exact tells_score h0
  value p hp := by
    refine ⟨_, _, h2.2 p hp, float_general 6 (by norm_num) _, (LggMain.suffix_stars p _).1, ?_⟩
    rw [(LggMain.suffix_stars p _).2]
    exact tells_value p (hparam p hp) _

theorem near_table {params : List Param} (hparam : ∀ p ∈ params, p.min < p.max) {i : Ind} (h0 : 0 ≤ i.score) {y : ℚ × PD}
    (h1 : y.1 = readBack 5 i.score) (h2 : Describes (general 5) params i.member y.2) : Near params i y := by
  have hr := readBack_relative 5 (by norm_num) i.score
  rw [abs_of_nonneg h0] at hr
  norm_num at hr
  refine ⟨fun n => h2.1.mem_iff, ?_, ?_, ?_, ?_⟩
  · rw [h1]
    have := abs_le.1 hr
    linarith [this.1]
  · rw [h1]; linarith
  · rw [h1]
    refine ⟨_, float_general 5 (by norm_num) _, ?_⟩
    rw [readBack_idem 5 (by norm_num)]
    linarith
  · intro p hp
    refine ⟨_, _, h2.2 p hp, float_general 5 (by norm_num) _, (LggMain.suffix_stars p _).1, ?_⟩
    rw [(LggMain.suffix_stars p _).2]
    obtain ⟨n, k, r, e1, e2, e3, e4⟩ := tells_value p (hparam p hp) (i.val p.name)
    refine ⟨general 5 (readBack 5 (i.val p.name)), (LogText.suffix p (i.val p.name)).length, readBack 5 (i.val p.name), ?_,
      ?_, ?_, ?_⟩
    · rw [(LggMain.suffix_stars p _).2]; rfl
    · rw [float_general 5 (by norm_num), readBack_idem 5 (by norm_num)]
    · have := readBack_relative 5 (by norm_num) (i.val p.name)
      have h5 := abs_nonneg (i.val p.name)
      norm_num at this
      linarith
    · have hs := C79_stars p (hparam p hp) (i.val p.name)
      have hd : 0 < p.max - p.min := by linarith [hparam p hp]
      rw [hs]
      refine ⟨?_, ?_, ?_⟩
      · split_ifs with a b
        · simp [a]
        · simp [a]
        · simp [a]
      · split_ifs with a b
        · simp; linarith
        · simp [b]
        · simpa using b
      · split_ifs <;> simp

/-- Which individuals are told, in which order, as far as scores can be told apart in the log and in the final table. -/
structure ToldAll (all shown : List Ind) : Prop where
  some : shown.Subperm all
  order : shown.Pairwise fun a b => b.score ≤ a.score + (2 + a.score + b.score) / 20000
  ratio : ∀ a ∈ shown, ∀ b ∈ all, a.score ≤ 2 * b.score + (3 + a.score + 2 * b.score) / 20000
  limit : shown.length ≤ 40
  best : all.length ≤ 40 → ∃ b ∈ shown.getLast?, ∀ a ∈ all, b.score ≤ a.score + (2 + a.score + b.score) / 20000

theorem tells_all (argsort : List TRow → List TRow) (hsort : Sorts argsort) (expanduser : Str → Str)
    (files : Str → Option (List Str)) (argv : List Str) (path : Str) (patterns : List Str) (ha : Asks argv path patterns)
    (hpat : patterns ≠ []) (params : List Param) (hnd : (params.map Param.name).Nodup) (file : List Str)
    (hfile : files (expanduser path) = some file) (inds : List Ind) (ys : List (ℚ × PD)) (hne : inds ≠ [])
    (hfil : filerator float file = ⟨ys, false⟩) (hrel : List.Forall₂ (Near params) inds ys) :
    ∃ (lines : List Str) (columns : List Param) (shown : List Ind) (rows : List (List Str)),
      main float (general 5) argsort expanduser files argv = .table lines ∧
      (∀ p, p ∈ columns ↔ p ∈ params ∧ ∃ a ∈ patterns, GlobMatch (parseGlob a.length a) p.name) ∧
      (columns.map Param.name).Pairwise (· < ·) ∧
      ToldAll inds shown ∧
      List.Forall₂ (TellsInd columns) shown rows ∧
      IsTable (columns.map Param.name) rows lines := by
  obtain ⟨e, rest, rfl⟩ : ∃ e rest, ys = e :: rest := by
    cases ys with
    | nil => cases hrel; exact absurd rfl hne
    | cons e rest => exact ⟨e, rest, rfl⟩
  have hback : ∀ y ∈ e :: rest, ∃ i ∈ inds, Near params i y := by
    clear hfil hne
    generalize e :: rest = l at hrel
    induction hrel with
    | nil => simp
    | cons h _ ih =>
      intro y hy
      rcases List.mem_cons.1 hy with rfl | hy
      · exact ⟨_, by simp, h⟩
      · obtain ⟨i, hi, h'⟩ := ih y hy
        exact ⟨i, by simp [hi], h'⟩
  have hforw : ∀ i ∈ inds, ∃ y ∈ e :: rest, Near params i y := by
    clear hfil hne hback
    generalize e :: rest = l at hrel
    induction hrel with
    | nil => simp
    | cons h _ ih =>
      intro i hi
      rcases List.mem_cons.1 hi with rfl | hi
      · exact ⟨_, by simp, h⟩
      · obtain ⟨y, hy, h'⟩ := ih i hi
        exact ⟨y, by simp [hy], h'⟩
  obtain ⟨ie, -, hie⟩ := hback e (by simp)
  obtain ⟨lines, names, rows, shown, h1, h2, h3, h4, h5, h6⟩ := C121_table float (general 5)
    (fun v => (number_word (C128_readable 5 (by norm_num) v).1).1) argsort hsort expanduser files argv path patterns ha hpat
    file hfile e rest hfil (by
      intro y hy n hn
      obtain ⟨p, hp, rfl⟩ := List.mem_map.1 ((hie.names n).1 hn)
      obtain ⟨i, -, hi⟩ := hback y hy
      obtain ⟨it, r, g1, g2, g3, -⟩ := hi.value p hp
      exact ⟨it, r, g1, g2, g3⟩)
  -- the columns
  obtain ⟨cols, hcn, hcp⟩ : ∃ cols : List Param, names = cols.map Param.name ∧ ∀ p ∈ cols, p ∈ params := by
    have : ∀ n ∈ names, ∃ p ∈ params, p.name = n := by
      intro n hn
      obtain ⟨p, hpp, h⟩ := List.mem_map.1 ((hie.names n).1 ((h3 n).1 hn).1)
      exact ⟨p, hpp, h⟩
    clear h2 h3 h4 h5 h6
    induction names with
    | nil => exact ⟨[], rfl, by simp⟩
    | cons n ns ih =>
      obtain ⟨cols, hc1, hc2⟩ := ih fun m hm => this m (by simp [hm])
      obtain ⟨p, hpp, rfl⟩ := this n (by simp)
      exact ⟨p :: cols, by rw [hc1]; rfl, by simpa [hpp] using hc2⟩
  -- the individuals
  obtain ⟨xs, hxs, hxr⟩ : ∃ xs : List Ind, xs.Subperm inds ∧ List.Forall₂ (Near params) xs shown := by
    obtain ⟨l, hl1, hl2⟩ := h6.some
    obtain ⟨a, ha1, ha2⟩ := sublist_forall₂ hl2 hrel
    obtain ⟨b, hb1, hb2⟩ := perm_forall₂ hl1 ha2
    exact ⟨b, hb1.subperm.trans ha1.subperm, hb2⟩
  have hxm : ∀ i ∈ xs, ∃ y ∈ shown, Near params i y := by
    clear h5 h6 hxs
    induction hxr with
    | nil => simp
    | cons h _ ih =>
      intro i hi
      rcases List.mem_cons.1 hi with rfl | hi
      · exact ⟨_, by simp, h⟩
      · obtain ⟨y, hy, h'⟩ := ih i hi
        exact ⟨y, by simp [hy], h'⟩
  refine ⟨lines, cols, xs, rows, h1, ?_, by rw [← hcn]; exact h2, ⟨hxs, ?_, ?_, ?_, ?_⟩, ?_, by rw [← hcn]; exact h4⟩
  · intro p
    constructor
    · intro hpc
      exact ⟨hcp p hpc, ((h3 p.name).1 (by rw [hcn]; exact List.mem_map_of_mem hpc)).2⟩
    · rintro ⟨hpp, hg⟩
      have : p.name ∈ names := (h3 p.name).2 ⟨(hie.names _).2 (List.mem_map_of_mem hpp), hg⟩
      rw [hcn] at this
      obtain ⟨q, hq, hqn⟩ := List.mem_map.1 this
      have : q = p := List.inj_on_of_nodup_map hnd (hcp q hq) hpp hqn
      rwa [← this]
  · have ho := h6.order
    clear h5 h6 hxs hxm
    induction hxr with
    | nil => exact .nil
    | cons h hr ih =>
      rename_i i y is ys
      rw [List.pairwise_cons] at ho ⊢
      refine ⟨?_, ih ho.2⟩
      intro j hj
      obtain ⟨z, hz, hjz⟩ : ∃ z ∈ ys, Near params j z := by
        clear ih ho
        induction hr with
        | nil => cases hj
        | cons h' _ ih =>
          rcases List.mem_cons.1 hj with rfl | hj
          · exact ⟨_, by simp, h'⟩
          · obtain ⟨z, hz, h'⟩ := ih hj
            exact ⟨z, by simp [hz], h'⟩
      have a1 := abs_le.1 h.close
      have a2 := abs_le.1 hjz.close
      have := ho.1 z hz
      linarith [a1.2, a2.1]
  · intro a ha b hb
    obtain ⟨y, hy, hya⟩ := hxm a ha
    obtain ⟨z, hz, hzb⟩ := hforw b hb
    have := h6.ratio (fun w hw => by
      obtain ⟨i, -, hi⟩ := hback w hw
      exact hi.nonneg) y hy z hz
    have a1 := abs_le.1 hya.close
    have a2 := abs_le.1 hzb.close
    linarith [a1.1, a2.2]
  · rw [hxr.length_eq]; exact h6.limit
  · intro hl
    obtain ⟨y, hy1, hy2⟩ := h6.best (by rw [← hrel.length_eq]; exact hl)
    obtain ⟨i, hi, hiy⟩ : ∃ i ∈ xs.getLast?, Near params i y := by
      clear h5 h6 hxs hxm
      induction hxr with
      | nil => cases hy1
      | cons h hr ih =>
        cases hr with
        | nil =>
          have : y = _ := (Option.some.inj hy1).symm
          subst this
          exact ⟨_, rfl, h⟩
        | cons h' hr' =>
          rw [List.getLast?_cons_cons] at hy1 ⊢
          exact ih hy1
    refine ⟨i, hi, fun a ha => ?_⟩
    obtain ⟨z, hz, hza⟩ := hforw a ha
    have := hy2 z hz
    have a1 := abs_le.1 hiy.close
    have a2 := abs_le.1 hza.close
    linarith [a1.1, a2.2]
  · clear h4 h6 hxs hxm
    induction hxr generalizing rows with
    | nil => cases h5; exact .nil
    | cons h _ ih =>
      cases h5 with
      | cons hr h5 =>
        refine .cons ?_ (ih _ h5)
        obtain ⟨cells, rfl, hc⟩ := hr
        refine ⟨_, _, rfl, h.score, ?_⟩
        clear ih h5
        rw [hcn] at hc
        clear hcn h3 h2
        induction cols generalizing cells with
        | nil => cases hc; exact .nil
        | cons p cols ih =>
          cases hc with
          | cons hw hc =>
            refine .cons ?_ (ih (fun q hq => hcp q (by simp [hq])) _ hc)
            obtain ⟨it, v, g1, g2, rfl⟩ := hw
            obtain ⟨it', r, k1, k2, k3, k4⟩ := h.value p (hcp p (by simp))
            rw [g1] at k1
            cases k1
            rw [g2] at k2
            cases k2
            exact k4

theorem log_pieces (float : Str → Option ℚ) (fmt : ℚ → Str) (params : List Param) (hnd : (params.map Param.name).Nodup)
    (items : List (List Str × Member)) (sse : Member → ℚ) (hnoise : ∀ x ∈ items, ∀ l ∈ x.1, Noise l)
    (hsse : ∀ x ∈ items, x.2.sse4 ≠ [] ∧ (∀ c ∈ x.2.sse4, isNumChar c = true) ∧ float x.2.sse4 = some (sse x.2))
    (hp : ∀ x ∈ items, ∀ p ∈ params, IsName p.name ∧ IsNumber (fmt (x.2.val p.name))) :
    ∃ log : List Piece, (∀ p ∈ log, p.Ok) ∧ (∀ e b, Piece.entry e b ∈ log → (float e.sse).isSome = true) ∧
      log.flatMap Piece.lines = logOf fmt params items ∧
      List.Forall₂ (fun x y => y.1 = sse x.2 ∧ Describes fmt params x.2 y.2) items (log.filterMap (Piece.entry? float)) := by
  induction items with
  | nil => exact ⟨[], by simp, by simp, rfl, .nil⟩
  | cons x items ih =>
    obtain ⟨log, g1, g2, g3, g4⟩ := ih (fun y hy => hnoise y (by simp [hy])) (fun y hy => hsse y (by simp [hy]))
      (fun y hy => hp y (by simp [hy]))
    obtain ⟨ha, hb, hc⟩ := hsse x (by simp)
    have hx := hp x (by simp)
    have hmap : ((x.2.pvs params).map fun pv => pv.1.name) = params.map Param.name := by
      simp [Member.pvs, Function.comp_def]
    obtain ⟨e, e1, e2, e3, -, e5⟩ := repr_entry fmt x.2.sse4 (x.2.pvs params) ⟨ha, hb⟩ (by rw [hmap]; exact hnd) (by
      intro pv hpv
      obtain ⟨p, hpp, rfl⟩ := List.mem_map.1 hpv
      exact hx p hpp)
    refine ⟨x.1.map Piece.noise ++ Piece.entry e [] :: log, ?_, ?_, ?_, ?_⟩
    · intro p hpm
      rcases List.mem_append.1 hpm with hpm | hpm
      · obtain ⟨l, hl, rfl⟩ := List.mem_map.1 hpm
        exact hnoise x (by simp) l hl
      · rcases List.mem_cons.1 hpm with rfl | hpm
        · exact ⟨e1, by simp⟩
        · exact g1 p hpm
    · intro e' b hpm
      rcases List.mem_append.1 hpm with hpm | hpm
      · obtain ⟨l, hl, h⟩ := List.mem_map.1 hpm
        cases h
      · rcases List.mem_cons.1 hpm with h | hpm
        · cases h
          rw [e3, hc]; rfl
        · exact g2 e' b hpm
    · rw [List.flatMap_append, List.flatMap_cons, g3, List.flatMap_map]
      have : (x.1.flatMap fun l => Piece.lines (.noise l)) = x.1 := List.flatMap_singleton' x.1
      rw [this]
      simp [Piece.lines, e2, logOf]
    · have h0 : (x.1.map Piece.noise).filterMap (Piece.entry? float) = [] := by
        rw [List.filterMap_map]
        exact List.filterMap_eq_nil_iff.2 fun _ _ => rfl
      rw [List.filterMap_append, h0, List.nil_append]
      have h1 : Piece.entry? float (.entry e []) = some (sse x.2, e.items) := by
        simp [Piece.entry?, e3, hc]
      rw [List.filterMap_cons_some h1]
      refine .cons ⟨rfl, ?_, ?_⟩ g4
      · rw [e5, List.map_map]
        exact ((sorted_perm _).map _).trans (by rw [← hmap]; exact List.Perm.refl _)
      · intro p hpp
        have : itemOf fmt (p, x.2.val p.name) ∈ e.items := by
          rw [e5]
          exact List.mem_map_of_mem ((sorted_perm _).mem_iff.2 (List.mem_map_of_mem hpp))
        exact get_of_mem this e1.distinct

theorem decimal_no_eq (n : ℕ) : '=' ∉ decimal n := by
  unfold decimal
  rw [pad_eq]
  intro h
  obtain ⟨d, -, hd⟩ := List.mem_map.1 h
  revert hd
  revert d
  decide

theorem head_ok (size : ℕ) (lo hi avg : ℚ) (top : ℕ) :
    (∃ h, headLine size lo hi avg top = 'P' :: h) ∧ '=' ∉ headLine size lo hi avg top := by
  refine ⟨⟨(headLine size lo hi avg top).tail, ?_⟩, ?_⟩
  · unfold headLine
    simp only [List.append_assoc]
    rfl
  · unfold headLine
    have h5 := fun q => (number_word (C128_readable 5 (by norm_num) q).1).2.2
    have h3 := fun q => (number_word (C128_readable 3 (by norm_num) q).1).2.2
    simp only [List.mem_append, decimal_no_eq, h5, h3, or_false, not_or]
    decide

theorem forall₂_imp_mem {α β : Type} {R S : α → β → Prop} {l : List α} {r : List β} (h : List.Forall₂ R l r)
    (H : ∀ a ∈ l, ∀ b, R a b → S a b) : List.Forall₂ S l r := by
  induction h with
  | nil => exact .nil
  | cons h _ ih => exact .cons (H _ (by simp) _ h) (ih fun a ha => H a (by simp [ha]))

theorem near_tops {params : List Param} (hparam : ∀ p ∈ params, p.min < p.max) (l : List Ind) (pts : List PD)
    (h0 : ∀ i ∈ l, 0 ≤ i.score) (h : List.Forall₂ (Describes (general 5) params) (l.map Ind.member) pts) :
    List.Forall₂ (Near params) l (((l.map Ind.member).map fun m => (float m.sse5).getD 0).zip pts) := by
  induction l generalizing pts with
  | nil => exact .nil
  | cons i l ih =>
    cases h with
    | cons h hr =>
      refine .cons (near_table hparam (h0 i (by simp)) ?_ h) (ih _ (fun j hj => h0 j (by simp [hj])) hr)
      simp only [Ind.member, float_general 5 (by norm_num), Option.getD_some]

/-- C129: the same with the final population at the end of the log: the rows tell individuals of the log, the best
individual of the final population, or the individuals of its table. -/
theorem C129_final (argsort : List TRow → List TRow) (hsort : Sorts argsort) (expanduser : Str → Str)
    (files : Str → Option (List Str)) (argv : List Str) (path : Str) (patterns : List Str) (ha : Asks argv path patterns)
    (hpat : patterns ≠ []) (params : List Param) (hne : params ≠ []) (hnd : (params.map Param.name).Nodup)
    (hparam : ∀ p ∈ params, IsName p.name ∧ p.name.length ≤ 100 ∧ p.min < p.max)
    (items : List (List Str × Ind)) (avg : ℚ) (best : Ind) (rest : List Ind)
    (hnoise : ∀ x ∈ items, ∀ l ∈ x.1, Noise l ∧ ¬ "Final population".toList <+: strip l)
    (hscore : ∀ i ∈ items.map Prod.snd ++ best :: rest, 0 ≤ i.score)
    (hval : ∀ i ∈ items.map Prod.snd ++ [best], ∀ p ∈ params, i.val p.name = 0 ∨
      (10 : ℚ) ^ (-99 : ℤ) ≤ |i.val p.name| ∧ |i.val p.name| < 10 ^ (99 : ℤ))
    (after : List Str) (hafter : ∀ l ∈ after, Noise l)
    (hfile : files (expanduser path) = some (logOf (general 6) params (items.map fun x => (x.1, x.2.member)) ++
      "Final population:".toList :: (popText params avg best rest ++ after))) :
    ∃ (lines : List Str) (columns : List Param) (shown : List Ind) (rows : List (List Str)),
      main float (general 5) argsort expanduser files argv = .table lines ∧
      (∀ p, p ∈ columns ↔ p ∈ params ∧ ∃ a ∈ patterns, GlobMatch (parseGlob a.length a) p.name) ∧
      (columns.map Param.name).Pairwise (· < ·) ∧
      ToldAll (items.map Prod.snd ++ best :: (best :: rest).take 7) shown ∧
      List.Forall₂ (TellsInd columns) shown rows ∧
      IsTable (columns.map Param.name) rows lines := by
  have hread := fun q => C128_readable 6 (by norm_num) q
  have hread4 := fun q => C128_readable 4 (by norm_num) q
  have hread5 := fun q => C128_readable 5 (by norm_num) q
  have hfix : ∀ q, fixed 4 q ≠ [] ∧ ∀ c ∈ fixed 4 q, isNumChar c = true := fun q =>
    ⟨(number_word (hread4 q).2.1).1.1, (hread4 q).2.2.2⟩
  have hwid : ∀ i ∈ items.map Prod.snd ++ [best], ∀ p ∈ params,
      (part (general 6) (p, i.member.val p.name)).length ≤ maxLineLength := by
    intro i hi p hp
    have b1 := C128_width 6 (by norm_num) (i.val p.name) (hval i hi p hp)
    have b2 := (LggMain.suffix_stars p (i.val p.name)).1
    have b3 := (hparam p hp).2.1
    simp only [Ind.member, part, stringValue, List.length_append, List.length_cons, List.length_nil, maxLineLength]
    split_ifs at b1 <;> omega
  obtain ⟨log, g1, g2, g3, g4⟩ := log_pieces float (general 6) params hnd (items.map fun x => (x.1, x.2.member))
    (fun m => (float m.sse4).getD 0)
    (by
      intro x hx l hl
      obtain ⟨y, hy, rfl⟩ := List.mem_map.1 hx
      exact (hnoise y hy l hl).1)
    (by
      intro x hx
      obtain ⟨y, hy, rfl⟩ := List.mem_map.1 hx
      refine ⟨(hfix _).1, (hfix _).2, ?_⟩
      simp only [Ind.member, float_fixed, Option.getD_some])
    (fun x hx p hp => ⟨(hparam p hp).1, (hread _).1⟩)
  have hs : ∀ i : Ind, (float i.member.sse4).getD 0 = score4 i.score := by
    intro i; simp only [Ind.member, float_fixed, Option.getD_some]
  have hsse : ∀ i : Ind, float i.member.sse5 = some (readBack 5 i.score) := fun i => float_general 5 (by norm_num) _
  have hlt : ∀ p ∈ params, p.min < p.max := fun p hp => (hparam p hp).2.2
  have htops : ∀ m ∈ ((best :: rest).take maxTop).map Ind.member, ∃ i ∈ best :: rest, m = i.member := by
    intro m hm
    obtain ⟨i, hi, rfl⟩ := List.mem_map.1 hm
    exact ⟨i, List.mem_of_mem_take hi, rfl⟩
  have hC := C81_final_population float log g1 g2 (by
      rw [g3]
      intro l hl
      obtain ⟨x, hx, hl⟩ := List.mem_flatMap.1 hl
      obtain ⟨y, hy, rfl⟩ := List.mem_map.1 hx
      simp only [List.mem_append, List.mem_singleton] at hl
      rcases hl with (hl | hl) | hl
      · exact (hnoise y hy l hl).2
      · refine repr_not_final _ _ _ (hfix _) ?_ l hl
        intro pv hpv
        obtain ⟨p, hp, rfl⟩ := List.mem_map.1 hpv
        exact ⟨(hparam p hp).1, (hread _).1⟩
      · subst hl; decide)
    (general 6) (general 5) (headLine (rest.length + 1) (lowest best.score (rest.map Ind.score))
      (highest best.score (rest.map Ind.score)) avg ((best :: rest).take maxTop).length) params
    (((best :: rest).take maxTop).map Ind.member) best.member (head_ok _ _ _ _ _) hne hnd
    (fun p hp => ⟨(hparam p hp).1, (hread _).1, fun m _ => (hread5 _).1⟩)
    (fun p hp => hwid best (by simp) p hp) (hfix _) (score4 best.score) (float_fixed _)
    (by
      intro m hm
      obtain ⟨i, -, rfl⟩ := htops m hm
      exact number_word (hread5 _).1)
    (fun m => (float m.sse5).getD 0)
    (by
      intro m hm
      obtain ⟨i, -, rfl⟩ := htops m hm
      rw [hsse]; rfl)
    after hafter
  obtain ⟨pb, pts, hf, hb, ht⟩ := hC
  rw [g3] at hf
  refine tells_all argsort hsort expanduser files argv path patterns ha hpat params hnd _ hfile
    (items.map Prod.snd ++ best :: (best :: rest).take 7) _ (by simp) hf ?_
  refine List.rel_append ?_ (.cons ?_ ?_)
  · rw [List.forall₂_map_left_iff] at g4 ⊢
    refine forall₂_imp_mem g4 fun x hx y hy => ?_
    exact near_log hlt (hscore x.2 (by simp only [List.mem_append]; exact .inl (List.mem_map_of_mem hx)))
      (by rw [hy.1, hs]) hy.2
  · exact near_log hlt (hscore best (by simp)) rfl hb
  · refine near_tops hlt _ _ (fun i hi => hscore i ?_) ht
    simp only [List.mem_append]
    exact .inr (List.mem_of_mem_take hi)

/-! ### The first line -/

theorem float_decimal (n : ℕ) : float (decimal n) = some (n : ℚ) := by
  let N : Specs.Numeral := ⟨none, padF (Nat.log 10 n + 1) n, none, none⟩
  have hok : N.Ok := ⟨padF_ne _ _ (Nat.succ_pos _), by simp [N], by simp [N]⟩
  have ht : decimal n = N.text := by
    simp [Specs.Numeral.text, N, decimal, pad_eq, Specs.fracText, Specs.expText, Specs.signText]
  have hv : N.value = n := by
    simp [Specs.Numeral.value, N, Specs.fracVal, Specs.expFactor, natOf_decimal]
  simp only [float, ht, parse_text N hok, hv]

theorem decimal_word (n : ℕ) : IsWord (decimal n) := by
  refine ⟨?_, ?_⟩
  · unfold decimal
    rw [pad_eq]
    simpa using padF_ne _ n (Nat.succ_pos _)
  · unfold decimal
    rw [pad_eq]
    intro c hc
    obtain ⟨d, -, rfl⟩ := List.mem_map.1 hc
    clear hc
    revert d
    decide

theorem lowest_spec (x : ℚ) (xs : List ℚ) : lowest x xs ∈ x :: xs ∧ ∀ y ∈ x :: xs, lowest x xs ≤ y := by
  unfold lowest
  induction xs generalizing x with
  | nil => simp
  | cons a xs ih =>
    obtain ⟨h1, h2⟩ := ih (min x a)
    rw [List.foldl_cons]
    have hm := h2 (min x a) (by simp)
    refine ⟨?_, ?_⟩
    · rcases List.mem_cons.1 h1 with h | h
      · rcases min_choice x a with h' | h' <;> rw [h, h'] <;> simp
      · simp [h]
    · intro y hy
      simp only [List.mem_cons] at hy
      rcases hy with rfl | rfl | hy
      · exact hm.trans (min_le_left _ _)
      · exact hm.trans (min_le_right _ _)
      · exact h2 y (by simp [hy])

theorem highest_spec (x : ℚ) (xs : List ℚ) : highest x xs ∈ x :: xs ∧ ∀ y ∈ x :: xs, y ≤ highest x xs := by
  unfold highest
  induction xs generalizing x with
  | nil => simp
  | cons a xs ih =>
    obtain ⟨h1, h2⟩ := ih (max x a)
    rw [List.foldl_cons]
    have hm := h2 (max x a) (by simp)
    refine ⟨?_, ?_⟩
    · rcases List.mem_cons.1 h1 with h | h
      · rcases max_choice x a with h' | h' <;> rw [h, h'] <;> simp
      · simp [h]
    · intro y hy
      simp only [List.mem_cons] at hy
      rcases hy with rfl | rfl | hy
      · exact (le_max_left _ _).trans hm
      · exact (le_max_right _ _).trans hm
      · exact h2 y (by simp [hy])

/-- C129: the first line of a printed population tells its size, its lowest and highest score and the average time with a
relative error of at most 0.005% (0.5% for the time), and the number of columns of the table: all individuals, at most
seven. -/
theorem C129_head (params : List Param) (avg : ℚ) (best : Ind) (rest : List Ind) :
    ∃ (head size lo hi time top : Str) (lines : List Str) (l h t l' h' : ℚ), popText params avg best rest = head :: lines ∧
      split head = ["Population:".toList, size, "individuals".toList, "with".toList, "SSE".toList, lo, "to".toList,
        hi ++ [','], "avg".toList, "eval".toList, "time".toList, time, "sec.".toList, "Top".toList, top ++ [':']] ∧
      float size = some ((best :: rest).length : ℚ) ∧ float top = some ((min 7 (best :: rest).length : ℕ) : ℚ) ∧
      float lo = some l ∧ float hi = some h ∧ float time = some t ∧
      l' ∈ (best :: rest).map Ind.score ∧ (∀ s ∈ (best :: rest).map Ind.score, l' ≤ s) ∧ |l - l'| ≤ 1 / 20000 * |l'| ∧
      h' ∈ (best :: rest).map Ind.score ∧ (∀ s ∈ (best :: rest).map Ind.score, s ≤ h') ∧ |h - h'| ≤ 1 / 20000 * |h'| ∧
      |t - avg| ≤ 1 / 200 * |avg| := by
  have w5 := fun q => (number_word (C128_readable 5 (by norm_num) q).1).1
  have w3 := fun q => (number_word (C128_readable 3 (by norm_num) q).1).1
  have hcat : ∀ (w : Str) (c : Char), IsWord w → isSpace c = false → IsWord (w ++ [c]) := by
    intro w c hw hc
    refine ⟨by simp, ?_⟩
    intro x hx
    rcases List.mem_append.1 hx with hx | hx
    · exact hw.2 x hx
    · rw [List.mem_singleton.1 hx]; exact hc
  obtain ⟨a1, a2⟩ := lowest_spec best.score (rest.map Ind.score)
  obtain ⟨b1, b2⟩ := highest_spec best.score (rest.map Ind.score)
  have r5 := fun q => readBack_relative 5 (by norm_num) q
  have r3 := readBack_relative 3 (by norm_num) avg
  norm_num at r5 r3
  refine ⟨headLine (rest.length + 1) (lowest best.score (rest.map Ind.score)) (highest best.score (rest.map Ind.score)) avg
    ((best :: rest).take maxTop).length, decimal (rest.length + 1), general 5 (lowest best.score (rest.map Ind.score)),
    general 5 (highest best.score (rest.map Ind.score)), general 3 avg, decimal ((best :: rest).take maxTop).length,
    _, _, _, _, lowest best.score (rest.map Ind.score), highest best.score (rest.map Ind.score), rfl, ?_, ?_, ?_,
    float_general 5 (by norm_num) _, float_general 5 (by norm_num) _, float_general 3 (by norm_num) _, by simpa using a1, by simpa using a2, ?_,
    by simpa using b1, by simpa using b2, ?_, ?_⟩
  · generalize lowest best.score (rest.map Ind.score) = lo
    generalize highest best.score (rest.map Ind.score) = hi
    generalize ((best :: rest).take maxTop).length = top
    refine Eq.trans (congrArg split ?_) (split_join ["Population:".toList, decimal (rest.length + 1),
      "individuals".toList, "with".toList, "SSE".toList, general 5 lo, "to".toList, general 5 hi ++ [','], "avg".toList, "eval".toList, "time".toList, general 3 avg,
      "sec.".toList, "Top".toList, decimal top ++ [':']] ?_)
    · unfold headLine
      generalize decimal (rest.length + 1) = s1
      generalize decimal top = s2
      generalize general 5 lo = s3
      generalize general 5 hi = s4
      generalize general 3 avg = s5
      simp [join]
    · have hlit : ∀ w ∈ ["Population:".toList, "individuals".toList, "with".toList, "SSE".toList, "to".toList, "avg".toList,
          "eval".toList, "time".toList, "sec.".toList, "Top".toList], IsWord w := by
        unfold IsWord; decide
      intro w hw
      simp only [List.mem_cons, List.not_mem_nil, or_false] at hw hlit
      rcases hw with rfl | rfl | rfl | rfl | rfl | rfl | rfl | rfl | rfl | rfl | rfl | rfl | rfl | rfl | rfl
      all_goals first
        | exact decimal_word _
        | exact w5 _
        | exact w3 _
        | exact hcat _ _ (w5 _) (by decide)
        | exact hcat _ _ (decimal_word _) (by decide)
        | exact hlit _ (by simp)
  · rw [float_decimal]; rfl
  · rw [float_decimal, List.length_take]; rfl
  · have := r5 (lowest best.score (rest.map Ind.score)); linarith
  · have := r5 (highest best.score (rest.map Ind.score)); linarith
  · linarith

/-! ### Example -/

namespace Demo

/-- Two individuals. -/
def i1 : Ind := ⟨22 / 7, fun n => if n = "x1".toList then 1 / 3 else -2000 / 3⟩
def i2 : Ind := ⟨2, fun n => if n = "x1".toList then 29 / 3 else 0⟩

/-- Two parameters. -/
def ps : List Param := [⟨"x1".toList, 0, 10⟩, ⟨"Rs".toList, -1000, 1000⟩]

/-- A log. -/
def items : List (List Str × Ind) := [(["Running".toList, [], "F=0.5".toList], i1), ([], i2)]

/-- The same file again and again. -/
def file (_ : Str) : Option (List Str) := some (logOf (general 6) ps (items.map fun x => (x.1, x.2.member)))

example : logOf (general 6) ps (items.map fun x => (x.1, x.2.member)) =
    ["Running".toList, [], "F=0.5".toList, "<SSE=3.1429 Rs=-666.667 x1=0.333333*>".toList, [],
      "<SSE=2.0000 Rs=0 x1=9.66667**>".toList, []] := by decide +kernel

theorem ps_ok : ∀ p ∈ ps, IsName p.name ∧ p.name.length ≤ 100 ∧ p.min < p.max := by
  intro p hp
  simp only [ps, List.mem_cons, List.not_mem_nil, or_false] at hp
  rcases hp with rfl | rfl
  · exact ⟨C80_names 'x' "1".toList (by unfold Letter; decide) (by unfold Letter Digit; decide), by decide, by norm_num⟩
  · exact ⟨C80_names 'R' "s".toList (by unfold Letter; decide) (by unfold Letter Digit; decide), by decide, by norm_num⟩

theorem noise_ok : ∀ x ∈ items, ∀ l ∈ x.1, Noise l ∧ ¬ "Final population".toList <+: strip l := by
  have : ∀ x ∈ items, ∀ l ∈ x.1, ¬ "SSE=".toList <:+: l ∧ ¬ "Final population".toList <+: strip l := by decide +kernel
  intro x hx l hl
  refine ⟨?_, (this x hx l hl).2⟩
  rintro ⟨a, c, b, rfl, -⟩
  exact (this x hx _ hl).1 ⟨a, c :: b, rfl⟩

end Demo

example := C129_table LggMain.Demo.order LggMain.Demo.order_sorts id LogNumbers.Demo.file _ _ _ LggMain.Demo.asks (by decide) LogNumbers.Demo.ps
  (by decide +kernel) LogNumbers.Demo.ps_ok LogNumbers.Demo.items
  (by simp [LogNumbers.Demo.items]) LogNumbers.Demo.noise_ok (by decide +kernel) (by decide +kernel)
  (by unfold LogNumbers.Demo.file; with_reducible rfl)

example := C129_final LggMain.Demo.order LggMain.Demo.order_sorts id (fun _ => some _) _ _ _ LggMain.Demo.asks (by decide)
  LogNumbers.Demo.ps (by simp [LogNumbers.Demo.ps]) (by decide +kernel) LogNumbers.Demo.ps_ok LogNumbers.Demo.items (1 / 100)
  LogNumbers.Demo.i2 [LogNumbers.Demo.i1] LogNumbers.Demo.noise_ok (by decide +kernel) (by decide +kernel) [] (by simp) rfl

/-- The final population as it is printed. -/
example : popText LogNumbers.Demo.ps (1 / 100) LogNumbers.Demo.i2 [LogNumbers.Demo.i1] =
    ["Population: 2 individuals with SSE 2 to 3.1429, avg eval time 0.01 sec. Top 2:".toList, [],
      "        SSE |          2       3.1429  ".toList, List.replicate 120 '-',
      "         Rs |          0      -666.67  ".toList, "         x1 |     9.6667**    0.33333* ".toList,
      List.replicate 120 '-', "Best individual:".toList, "<SSE=2.0000 Rs=0 x1=9.66667**>".toList, []] := by
  decide +kernel

example := C129_head LogNumbers.Demo.ps (1 / 100) LogNumbers.Demo.i2 [LogNumbers.Demo.i1]

/-- The table that is printed. -/
example : main float (general 5) LggMain.Demo.order id LogNumbers.Demo.file ["a.log".toList, "x*".toList, "R*".toList] = .table
    ["".toList, "       SSE           Rs           x1".toList, "--------------------------------------".toList,
      "    3.1429      -666.67      0.33333*".toList, "         2            0       9.6667**".toList, "".toList] := by
  decide +kernel

end LogNumbers
end Ade
