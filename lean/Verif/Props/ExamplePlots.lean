import Verif.Model.ExamplePlots
import Verif.Props.Thermistor
import Verif.Props.Voc

/-!
# C146: the plots of the examples show what is scored

The curve drawn by the battery and the thermistor example is the one whose distances from the readings make the score.
-/

set_option autoImplicit false

namespace Ade
namespace ExamplePlots

/-- Two hundred places at equal distances, the first and the last as given. -/
def EvenlySpaced (a b : ℝ) (l : List ℝ) : Prop :=
  l.length = 200 ∧ l[0]? = some a ∧ l[199]? = some b ∧
    ∀ i x y, l[i]? = some x → l[i + 1]? = some y → y - x = (b - a) / 199

theorem linspace_even (a b : ℝ) : EvenlySpaced a b (linspace a b 200) := by
  have get : ∀ i : ℕ, i < 200 → (linspace a b 200)[i]? = some (a + i * ((b - a) / 199)) := by
    intro i hi
    unfold linspace
    rw [List.getElem?_map, List.getElem?_range hi]
    norm_num
  have len : (linspace a b 200).length = 200 := by simp [linspace]
  refine ⟨len, ?_, ?_, ?_⟩
  · rw [get 0 (by norm_num)]; simp
  · rw [get 199 (by norm_num)]; congr 1; push_cast; ring
  · intro i x y hx hy
    have hi : i + 1 < 200 := len ▸ (List.getElem?_eq_some_iff.1 hy).1
    rw [get i (by omega)] at hx
    rw [get (i + 1) hi] at hy
    rw [← Option.some.inj hx, ← Option.some.inj hy]
    push_cast
    ring

/-- Places at equal distances in order of size, if the first is below the last. -/
theorem linspace_lt (a b : ℝ) (h : a < b) : (linspace a b 200).Pairwise (· < ·) := by
  unfold linspace
  rw [List.pairwise_map]
  refine List.Pairwise.imp ?_ (List.pairwise_lt_range (n := 200))
  intro i j hij
  have h1 : (i : ℝ) < j := by exact_mod_cast hij
  have h2 : 0 < (b - a) / ((200 : ℕ) - 1) := by
    have : (0 : ℝ) < (200 : ℕ) - 1 := by norm_num
    exact div_pos (by linarith) this
  nlinarith

theorem linspace_ge (a b : ℝ) (h : a ≤ b) : ∀ x ∈ linspace a b 200, a ≤ x := by
  intro x hx
  obtain ⟨i, -, rfl⟩ := List.mem_map.1 hx
  have h2 : 0 ≤ (b - a) / ((200 : ℕ) - 1) := by
    have : (0 : ℝ) < (200 : ℕ) - 1 := by norm_num
    exact div_nonneg (by linarith) this.le
  have : (0 : ℝ) ≤ i := Nat.cast_nonneg i
  nlinarith

theorem foldl_min_least (l : List ℝ) : ∀ x, IsLeast {y | y ∈ x :: l} (l.foldl min x) := by
  induction l with
  | nil => intro x; simp [IsLeast, lowerBounds]
  | cons a l ih =>
    intro x
    obtain ⟨h1, h2⟩ := ih (min x a)
    refine ⟨?_, ?_⟩
    · simp only [Set.mem_ofPred_eq, List.foldl_cons, List.mem_cons] at h1 ⊢
      rcases h1 with h1 | h1
      · rw [h1]
        rcases min_choice x a with h | h <;> simp [h]
      · exact .inr (.inr h1)
    · intro y hy
      simp only [Set.mem_ofPred_eq, List.mem_cons] at hy
      have hm : l.foldl min (min x a) ≤ min x a := h2 (by simp)
      rw [List.foldl_cons]
      rcases hy with rfl | rfl | hy
      · exact hm.trans (min_le_left _ _)
      · exact hm.trans (min_le_right _ _)
      · exact h2 (by simp [hy])

theorem foldl_max_greatest (l : List ℝ) : ∀ x, IsGreatest {y | y ∈ x :: l} (l.foldl max x) := by
  induction l with
  | nil => intro x; simp [IsGreatest, upperBounds]
  | cons a l ih =>
    intro x
    obtain ⟨h1, h2⟩ := ih (max x a)
    refine ⟨?_, ?_⟩
    · simp only [Set.mem_ofPred_eq, List.foldl_cons, List.mem_cons] at h1 ⊢
      rcases h1 with h1 | h1
      · rw [h1]
        rcases max_choice x a with h | h <;> simp [h]
      · exact .inr (.inr h1)
    · intro y hy
      simp only [Set.mem_ofPred_eq, List.mem_cons] at hy
      have hm : max x a ≤ l.foldl max (max x a) := h2 (by simp)
      rw [List.foldl_cons]
      rcases hy with rfl | rfl | hy
      · exact (le_max_left _ _).trans hm
      · exact (le_max_right _ _).trans hm
      · exact h2 (by simp [hy])

theorem least_spec (l : List ℝ) (h : l ≠ []) : ∃ lo, least l = some lo ∧ IsLeast {y | y ∈ l} lo := by
  cases l with
  | nil => exact absurd rfl h
  | cons x l => exact ⟨_, rfl, foldl_min_least l x⟩

theorem greatest_spec (l : List ℝ) (h : l ≠ []) : ∃ hi, greatest l = some hi ∧ IsGreatest {y | y ∈ l} hi := by
  cases l with
  | nil => exact absurd rfl h
  | cons x l => exact ⟨_, rfl, foldl_max_greatest l x⟩

/-! ## The battery example -/

/-- C146, battery example with three readings or more: the upper plot shows the readings, and the curve at two hundred times from
that of the first reading to three times that of the last one; the lower one shows the distances of the readings from that same
curve, and a hundred times the sum of their squares is the score.  What is missing: without a third reading there is no plot
(C146_voc_few). -/
theorem C146_voc_partial (rows : List (ℝ × ℝ)) (values : List ℝ) (h : 3 ≤ rows.length) :
    ∃ (top bottom : Subplot) (f : ℝ → ℝ) (first last : ℝ), vocPlot rows values = some (top, bottom) ∧
      IsLeast {t | t ∈ rows.map Prod.fst} first ∧ IsGreatest {t | t ∈ rows.map Prod.fst} last ∧
      top.points = rows ∧ EvenlySpaced first (3 * last) (top.line.map Prod.fst) ∧ (∀ p ∈ top.line, p.2 = some (f p.1)) ∧
      bottom.points = rows.map (fun r => (r.1, f r.1 - r.2)) ∧ bottom.zero = some 0 ∧
      Voc.score rows values = 100 * (bottom.points.map fun p => p.2 ^ 2).sum := by
  have hne : rows.map Prod.fst ≠ [] := by
    intro h0
    have := congrArg List.length h0
    simp at this
    rw [this] at h
    simp at h
  obtain ⟨lo, e1, hlo⟩ := least_spec _ hne
  obtain ⟨hi, e2, hhi⟩ := greatest_spec _ hne
  have hd : ((rows.map fun r => Voc.curve r.1 values - r.2).drop 2).isEmpty = false := by
    rw [List.isEmpty_eq_false_iff]
    intro h0
    have := congrArg List.length h0
    simp at this
    omega
  have hz : (rows.map Prod.fst).zip (rows.map fun r => Voc.curve r.1 values - r.2) =
      rows.map fun r => (r.1, Voc.curve r.1 values - r.2) := by
    rw [List.zip_map']
  refine ⟨⟨rows, (linspace lo (3 * hi) 200).map fun x => (x, some (Voc.curve x values)), some (values.getLastD 0)⟩,
    ⟨(rows.map Prod.fst).zip (rows.map fun r => Voc.curve r.1 values - r.2), [], some 0⟩,
    fun t => Voc.curve t values, lo, hi, ?_, hlo, hhi, ?_, ?_, ?_, ?_, ?_, ?_⟩
  · unfold vocPlot
    simp only [e1, e2, hd, Bool.false_eq_true, if_false]
  · rfl
  · show EvenlySpaced lo (3 * hi) (((linspace lo (3 * hi) 200).map fun x => (x, some (Voc.curve x values))).map Prod.fst)
    rw [List.map_map]
    have : (Prod.fst ∘ fun x : ℝ => (x, some (Voc.curve x values))) = id := rfl
    rw [this, List.map_id]
    exact linspace_even _ _
  · intro p hp
    obtain ⟨x, -, rfl⟩ := List.mem_map.1 hp
    rfl
  · exact hz
  · rfl
  · show Voc.score rows values = 100 * (((rows.map Prod.fst).zip (rows.map fun r => Voc.curve r.1 values - r.2)).map
      fun p => p.2 ^ 2).sum
    rw [hz, List.map_map]
    rfl

/-- C146, negation: without a third reading the report of a new best combination fails, and there is no plot. -/
theorem C146_voc_few (rows : List (ℝ × ℝ)) (values : List ℝ) (h : rows.length ≤ 2) : vocPlot rows values = none := by
  have hd : ((rows.map fun r => Voc.curve r.1 values - r.2).drop 2).isEmpty = true := by
    rw [List.isEmpty_iff, List.drop_eq_nil_iff]
    simpa using h
  unfold vocPlot
  simp only [hd, if_true]
  split <;> rfl

/-- C146: the line drawn across the upper plot is at the voltage estimated; for values within the bounds (and `a2` above 0) the
curve drawn falls, all of it above that line. -/
theorem C146_voc_line (rows : List (ℝ × ℝ)) (values : List ℝ) (hv : Voc.WithinBounds values)
    (ha : 0 < Voc.value values "a2") (top bottom : Subplot) (h : vocPlot rows values = some (top, bottom)) :
    top.zero = some (Voc.value values "voc") ∧
      (∀ (i j : ℕ) (t t' V V' : ℝ), top.line[i]? = some (t, some V) → top.line[j]? = some (t', some V') → t < t' → V' < V) ∧
      ∀ p ∈ top.line, ∃ V, p.2 = some V ∧ Voc.value values "voc" < V := by
  obtain ⟨c1, c2, -⟩ := Voc.C96_curve_partial values hv ha
  have hl : values.length = 10 := by
    rw [← hv.length_eq]
    decide +kernel
  have hvoc : values.getLastD 0 = Voc.value values "voc" := by
    have hi : Voc.names.idxOf "voc".toList = 9 := by decide +kernel
    unfold Voc.value
    rw [hi]
    obtain ⟨v0, v1, v2, v3, v4, v5, v6, v7, v8, v9, rfl⟩ : ∃ v0 v1 v2 v3 v4 v5 v6 v7 v8 v9,
        values = [v0, v1, v2, v3, v4, v5, v6, v7, v8, v9] := by
      match values, hl with
      | [v0, v1, v2, v3, v4, v5, v6, v7, v8, v9], _ => exact ⟨_, _, _, _, _, _, _, _, _, _, rfl⟩
    rfl
  have hline : (∀ p ∈ top.line, p.2 = some (Voc.curve p.1 values)) ∧ top.zero = some (values.getLastD 0) := by
    unfold vocPlot at h
    dsimp only at h
    split at h
    · split_ifs at h
      cases h
      refine ⟨fun p hp => ?_, rfl⟩
      obtain ⟨x, -, rfl⟩ := List.mem_map.1 hp
      rfl
    · cases h
  refine ⟨hvoc ▸ hline.2, ?_, fun p hp => ⟨_, hline.1 p hp, c1 _⟩⟩
  intro i j t t' V V' h1 h2 ht
  have e1 := hline.1 _ (List.mem_of_getElem? h1)
  have e2 := hline.1 _ (List.mem_of_getElem? h2)
  rw [Option.some.inj e1, Option.some.inj e2]
  exact c2 t t' ht

/-! ## The thermistor example -/

theorem mapM_id_some {α : Type} (l : List (Option α)) (m : List α) (h : List.Forall₂ (fun o a => o = some a) l m) :
    l.mapM id = some m := by
  induction h with
  | nil => rfl
  | cons h _ ih =>
    subst h
    rw [List.mapM_cons, ih]
    rfl

theorem subplot_spec (rows : List (ℝ × ℝ × ℝ)) (values : List ℝ) (k : ℕ) (h : rows ≠ []) :
    ∃ (s : Subplot) (lo hi : ℝ), thermistorSubplot rows values k = some s ∧
      IsLeast {R | R ∈ rows.map fun r => r.2.2} lo ∧ IsGreatest {R | R ∈ rows.map fun r => r.2.2} hi ∧
      s.points = rows.map (fun r => (r.2.2, r.2.1)) ∧ EvenlySpaced (lo - 10) (hi + 10) (s.line.map Prod.fst) ∧
      (∀ p ∈ s.line, lo - 10 ≤ p.1 ∧ p.2 = curveAt p.1 (Thermistor.values2args values k)) := by
  have hne : (rows.map fun r => r.2.2) ≠ [] := by simpa using h
  obtain ⟨lo, e1, hlo⟩ := least_spec _ hne
  obtain ⟨hi, e2, hhi⟩ := greatest_spec _ hne
  have hle : lo ≤ hi := hlo.2 hhi.1
  refine ⟨⟨(rows.map fun r => r.2.2).zip (rows.map fun r => r.2.1), (linspace (lo - 10) (hi + 10) 200).map fun x =>
    (x, curveAt x (Thermistor.values2args values k)), none⟩, lo, hi, ?_, hlo, hhi, ?_, ?_, ?_⟩
  · unfold thermistorSubplot
    simp only [e1, e2]
  · show (rows.map fun r => r.2.2).zip (rows.map fun r => r.2.1) = _
    rw [List.zip_map']
  · show EvenlySpaced (lo - 10) (hi + 10) (((linspace (lo - 10) (hi + 10) 200).map fun x =>
      (x, curveAt x (Thermistor.values2args values k))).map Prod.fst)
    rw [List.map_map]
    have : (Prod.fst ∘ fun x : ℝ => (x, curveAt x (Thermistor.values2args values k))) = id := rfl
    rw [this, List.map_id]
    exact linspace_even _ _
  · intro p hp
    obtain ⟨x, hx, rfl⟩ := List.mem_map.1 hp
    exact ⟨linspace_ge _ _ (by linarith) x hx, rfl⟩

/-- C146, thermistor example: there are six plots, one for each thermistor.  Each shows its readings, and its curve at two hundred
resistances from ten below the least reading to ten above the greatest, if the least reading is above ten.  The score is zero
exactly if the curves go through all readings that have a weight.  What is missing: a least reading of ten or less
(C146_thermistor_gap). -/
theorem C146_thermistor_partial (data : ℕ → List (ℝ × ℝ × ℝ)) (values : List ℝ) (hd : ∀ k, 1 ≤ k → k ≤ 6 → data k ≠ [])
    (hw : ∀ k, ∀ r ∈ data k, 0 ≤ r.1) :
    ∃ (plots : List Subplot) (f : ℕ → ℝ → ℝ), thermistorPlot data values = some plots ∧ plots.length = 6 ∧
      (∀ k s, 1 ≤ k → plots[k - 1]? = some s →
        s.points = (data k).map (fun r => (r.2.2, r.2.1)) ∧
        ∃ lo hi, IsLeast {R | R ∈ (data k).map fun r => r.2.2} lo ∧ IsGreatest {R | R ∈ (data k).map fun r => r.2.2} hi ∧
          EvenlySpaced (lo - 10) (hi + 10) (s.line.map Prod.fst) ∧
          (10 < lo → ∀ p ∈ s.line, p.2 = some (f k p.1))) ∧
      (Thermistor.score data values none = 0 ↔
        ∀ k, 1 ≤ k → k ≤ 6 → ∀ w T R, (w, T, R) ∈ data k → w ≠ 0 → f k R = T) := by
  have hs : ∀ k, 1 ≤ k → k ≤ 6 → ∃ s, thermistorSubplot (data k) values k = some s := fun k h1 h2 => by
    obtain ⟨s, -, -, h, -⟩ := subplot_spec (data k) values k (hd k h1 h2)
    exact ⟨s, h⟩
  obtain ⟨s1, e1⟩ := hs 1 (by norm_num) (by norm_num)
  obtain ⟨s2, e2⟩ := hs 2 (by norm_num) (by norm_num)
  obtain ⟨s3, e3⟩ := hs 3 (by norm_num) (by norm_num)
  obtain ⟨s4, e4⟩ := hs 4 (by norm_num) (by norm_num)
  obtain ⟨s5, e5⟩ := hs 5 (by norm_num) (by norm_num)
  obtain ⟨s6, e6⟩ := hs 6 (by norm_num) (by norm_num)
  refine ⟨[s1, s2, s3, s4, s5, s6], fun k R => Thermistor.curve R (Thermistor.values2args values k), ?_, rfl, ?_, ?_⟩
  · unfold thermistorPlot
    apply mapM_id_some
    exact .cons e1 (.cons e2 (.cons e3 (.cons e4 (.cons e5 (.cons e6 .nil)))))
  · intro k s hk hks
    have hk6 : k ≤ 6 := by
      have := (List.getElem?_eq_some_iff.1 hks).1
      simp at this
      omega
    have he : thermistorSubplot (data k) values k = some s := by
      interval_cases k <;> simp at hks <;> subst hks <;> assumption
    obtain ⟨s', lo, hi, h1, h2, h3, h4, h5, h6⟩ := subplot_spec (data k) values k (hd k hk hk6)
    rw [he] at h1
    cases h1
    refine ⟨h4, lo, hi, h2, h3, h5, fun h10 p hp => ?_⟩
    obtain ⟨q1, q2⟩ := h6 p hp
    rw [q2]
    unfold curveAt
    rw [if_pos (by linarith)]
  · exact Thermistor.C95_perfect data values hw

/-- C146: for values within the bounds and readings of eleven or more, the curves drawn fall, above absolute zero. -/
theorem C146_thermistor_falls (rows : List (ℝ × ℝ × ℝ)) (values : List ℝ) (k : ℕ) (hk : 1 ≤ k ∧ k ≤ 6)
    (hv : Thermistor.WithinBounds values) (hr : ∀ r ∈ rows, 11 ≤ r.2.2) (s : Subplot)
    (h : thermistorSubplot rows values k = some s) :
    (∀ p ∈ s.line, ∃ T, p.2 = some T ∧ -273.15 < T) ∧
      ∀ (i j : ℕ) (R R' T T' : ℝ), s.line[i]? = some (R, some T) → s.line[j]? = some (R', some T') → R < R' → T' < T := by
  have hne : rows ≠ [] := by
    rintro rfl
    cases h
  obtain ⟨s', lo, hi, h1, h2, h3, h4, h5, h6⟩ := subplot_spec rows values k hne
  rw [h] at h1
  cases h1
  have hlo : 11 ≤ lo := by
    obtain ⟨r, hr1, hr2⟩ := List.mem_map.1 h2.1
    rw [← hr2]
    exact hr r hr1
  have hp : ∀ p ∈ s.line, 1 ≤ p.1 ∧ p.2 = some (Thermistor.curve p.1 (Thermistor.values2args values k)) := by
    intro p hp
    obtain ⟨q1, q2⟩ := h6 p hp
    refine ⟨by linarith, ?_⟩
    rw [q2]
    unfold curveAt
    rw [if_pos (by linarith)]
  constructor
  · intro p hpl
    obtain ⟨q1, q2⟩ := hp p hpl
    refine ⟨_, q2, ?_⟩
    have := Thermistor.C95_curve_decreasing values hv k hk p.1 (p.1 + 1) q1 (by linarith)
    exact this.1.trans this.2
  · intro i j R R' T T' g1 g2 hlt
    obtain ⟨q1, q2⟩ := hp _ (List.mem_of_getElem? g1)
    obtain ⟨q3, q4⟩ := hp _ (List.mem_of_getElem? g2)
    rw [Option.some.inj q2, Option.some.inj q4]
    exact (Thermistor.C95_curve_decreasing values hv k hk R R' q1 hlt).2

/-- C146, negation: with a reading of ten or less the extrapolated part of the curve starts where there is no logarithm: there is
a gap. -/
theorem C146_thermistor_gap (rows : List (ℝ × ℝ × ℝ)) (values : List ℝ) (k : ℕ) (r : ℝ × ℝ × ℝ) (hr : r ∈ rows)
    (h10 : r.2.2 ≤ 10) :
    ∃ s R, thermistorSubplot rows values k = some s ∧ s.line[0]? = some (R, none) := by
  obtain ⟨s', lo, hi, h1, h2, h3, h4, h5, h6⟩ := subplot_spec rows values k (List.ne_nil_of_mem hr)
  have hlo : lo ≤ 10 := (h2.2 (List.mem_map.2 ⟨r, hr, rfl⟩)).trans h10
  have h0 := h5.2.1
  rw [List.getElem?_map] at h0
  obtain ⟨p, hp, hp0⟩ := Option.map_eq_some_iff.1 h0
  obtain ⟨R, o⟩ := p
  refine ⟨s', R, h1, ?_⟩
  rw [hp]
  have h7 := (h6 _ (List.mem_of_getElem? hp)).2
  dsimp only at h7 hp0
  rw [h7]
  unfold curveAt
  rw [if_neg (by linarith)]

namespace Demo

/-- Three readings of the battery example. -/
def rows : List (ℝ × ℝ) := [(0, 60), (60, 55), (120, 52)]

example := C146_voc_partial rows Voc.flat (by decide)
example := C146_voc_few [(0, 60), (60, 55)] Voc.flat (by decide)
example : ∃ top bottom, vocPlot rows [0, 1, 0, 1, 1200, 3600, 1, 50, 100, 50] = some (top, bottom) ∧
    top.zero = some (Voc.value [0, 1, 0, 1, 1200, 3600, 1, 50, 100, 50] "voc") := by
  obtain ⟨top, bottom, -, -, -, h, -⟩ := C146_voc_partial rows [0, 1, 0, 1, 1200, 3600, 1, 50, 100, 50] (by decide)
  exact ⟨top, bottom, h, (C146_voc_line rows _ Voc.demo_within.1 Voc.demo_within.2 top bottom h).1⟩

/-- Two readings of each thermistor. -/
def data : ℕ → List (ℝ × ℝ × ℝ) := fun _ => [(0, 20, 1000), (1, 21, 900)]

example := C146_thermistor_partial data (List.replicate 28 1) (by simp [data]) (by simp [data])
example : ∃ s, thermistorSubplot (data 2) Thermistor.demoValues 2 = some s ∧ ∀ p ∈ s.line, ∃ T, p.2 = some T ∧ -273.15 < T := by
  obtain ⟨s, -, -, h, -⟩ := subplot_spec (data 2) Thermistor.demoValues 2 (by simp [data])
  exact ⟨s, h, (C146_thermistor_falls (data 2) _ 2 (by decide) Thermistor.demoValues_within (by norm_num [data]) s h).1⟩
example := C146_thermistor_gap [(0, 20, 1000), (1, 80, 8)] (List.replicate 28 1) 1 (1, 80, 8) (by simp) (by norm_num)

end Demo

end ExamplePlots
end Ade
