import Verif.Model.LineFit
import Mathlib.Algebra.BigOperators.Group.List.Basic
import Mathlib.Algebra.Order.BigOperators.Group.List
import Mathlib.Algebra.BigOperators.Ring.List
import Mathlib.Data.Rat.Floor
import Mathlib.Tactic.Linarith
import Mathlib.Tactic.LinearCombination
import Mathlib.Tactic.Positivity
import Mathlib.Tactic.FieldSimp
import Mathlib.Tactic.Ring

/-!
# C125: the fitted line is the best one
-/

set_option autoImplicit false

open scoped List

namespace Ade
namespace LineFit

theorem total_cons (f : Pt → ℚ) (p : Pt) (ps : List Pt) : total f (p :: ps) = f p + total f ps := by simp [total]

theorem total_nil (f : Pt → ℚ) : total f [] = 0 := rfl

theorem total_nonneg (f : Pt → ℚ) (ps : List Pt) (h : ∀ p ∈ ps, 0 ≤ f p) : 0 ≤ total f ps := by
  induction ps with
  | nil => exact le_refl _
  | cons p ps ih =>
    rw [total_cons]
    exact add_nonneg (h p List.mem_cons_self) (ih fun q hq => h q (List.mem_cons_of_mem _ hq))

theorem total_eq_zero (f : Pt → ℚ) (ps : List Pt) (h : ∀ p ∈ ps, 0 ≤ f p) (hz : total f ps = 0) : ∀ p ∈ ps, f p = 0 := by
  induction ps with
  | nil => simp
  | cons p ps ih =>
    rw [total_cons] at hz
    have h1 := h p List.mem_cons_self
    have h2 := total_nonneg f ps fun q hq => h q (List.mem_cons_of_mem _ hq)
    intro q hq
    rcases List.mem_cons.1 hq with rfl | hq
    · linarith
    · exact ih (fun q hq => h q (List.mem_cons_of_mem _ hq)) (by linarith) q hq

/-- The sum of the squared residuals of a line. -/
def sumSq (ps : List Pt) (m b : ℚ) : ℚ := total (fun p => p.w * (p.y - (m * p.x + b)) ^ 2) ps

theorem sumSq_eq (ps : List Pt) (m b : ℚ) : sumSq ps m b =
    total (fun p => p.w * p.y ^ 2) ps - 2 * m * total (fun p => p.w * p.x * p.y) ps - 2 * b * total (fun p => p.w * p.y) ps +
      m ^ 2 * total (fun p => p.w * p.x ^ 2) ps + 2 * m * b * total (fun p => p.w * p.x) ps + b ^ 2 * total (fun p => p.w) ps := by
  unfold sumSq
  induction ps with
  | nil => simp [total_nil]
  | cons p ps ih => simp only [total_cons, ih]; ring

theorem quad_eq (ps : List Pt) (u v : ℚ) : total (fun p => p.w * (u * p.x + v) ^ 2) ps =
    u ^ 2 * total (fun p => p.w * p.x ^ 2) ps + 2 * u * v * total (fun p => p.w * p.x) ps + v ^ 2 * total (fun p => p.w) ps := by
  induction ps with
  | nil => simp [total_nil]
  | cons p ps ih => simp only [total_cons, ih]; ring

/-- The determinant of the normal equations. -/
def det (ps : List Pt) : ℚ :=
  total (fun p => p.w) ps * total (fun p => p.w * p.x ^ 2) ps - total (fun p => p.w * p.x) ps ^ 2

theorem det_cons (p : Pt) (ps : List Pt) : det (p :: ps) = det ps + p.w * total (fun q => q.w * (q.x - p.x) ^ 2) ps := by
  have h := quad_eq ps 1 (-p.x)
  simp only [one_mul, ← sub_eq_add_neg] at h
  rw [h]
  simp only [det, total_cons]
  ring

theorem det_nonneg (ps : List Pt) (h : ∀ p ∈ ps, 0 < p.w) : 0 ≤ det ps := by
  induction ps with
  | nil => simp [det, total_nil]
  | cons p ps ih =>
    rw [det_cons]
    have h1 := h p List.mem_cons_self
    have h2 := total_nonneg (fun q => q.w * (q.x - p.x) ^ 2) ps fun q hq =>
      mul_nonneg (h q (List.mem_cons_of_mem _ hq)).le (sq_nonneg _)
    have h3 := ih fun q hq => h q (List.mem_cons_of_mem _ hq)
    positivity

theorem det_zero_iff (ps : List Pt) (h : ∀ p ∈ ps, 0 < p.w) : det ps = 0 ↔ ∀ p ∈ ps, ∀ q ∈ ps, p.x = q.x := by
  induction ps with
  | nil => simp [det, total_nil]
  | cons p ps ih =>
    have hw := fun q hq => h q (List.mem_cons_of_mem p hq)
    have hp := h p List.mem_cons_self
    have hn : ∀ q ∈ ps, 0 ≤ q.w * (q.x - p.x) ^ 2 := fun q hq => mul_nonneg (hw q hq).le (sq_nonneg _)
    have h2 := total_nonneg (fun q => q.w * (q.x - p.x) ^ 2) ps hn
    have h3 := det_nonneg ps hw
    rw [det_cons]
    constructor
    · intro hz
      have h4 : p.w * total (fun q => q.w * (q.x - p.x) ^ 2) ps = 0 := by
        have := mul_nonneg hp.le h2
        linarith
      have h5 : total (fun q => q.w * (q.x - p.x) ^ 2) ps = 0 := (mul_eq_zero.1 h4).resolve_left hp.ne'
      have key : ∀ q ∈ ps, q.x = p.x := by
        intro q hq
        have := total_eq_zero _ ps hn h5 q hq
        have := (mul_eq_zero.1 this).resolve_left (hw q hq).ne'
        exact sub_eq_zero.1 (pow_eq_zero_iff (two_ne_zero)|>.1 this)
      intro a ha b hb
      have hx : ∀ q ∈ p :: ps, q.x = p.x := by
        intro q hq
        rcases List.mem_cons.1 hq with e | hq'
        · rw [e]
        · exact key q hq'
      rw [hx a ha, hx b hb]
    · intro hall
      have h4 : det ps = 0 := (ih hw).2 fun a ha b hb => hall a (List.mem_cons_of_mem _ ha) b (List.mem_cons_of_mem _ hb)
      have h5 : total (fun q => q.w * (q.x - p.x) ^ 2) ps = 0 := by
        have : ∀ l : List Pt, (∀ q ∈ l, q.x = p.x) → total (fun q => q.w * (q.x - p.x) ^ 2) l = 0 := by
          intro l
          induction l with
          | nil => intro _; rfl
          | cons a l ih =>
            intro hl
            rw [total_cons, hl a List.mem_cons_self, ih fun q hq => hl q (List.mem_cons_of_mem _ hq)]
            ring
        exact this ps fun q hq => hall q (List.mem_cons_of_mem _ hq) p List.mem_cons_self
      rw [h4, h5]
      ring

/-- The solution of the normal equations. -/
theorem polyfit_normal (ps : List Pt) (m b : ℚ) (h : polyfit ps = some (m, b)) :
    det ps ≠ 0 ∧ m * total (fun p => p.w * p.x ^ 2) ps + b * total (fun p => p.w * p.x) ps = total (fun p => p.w * p.x * p.y) ps ∧
      m * total (fun p => p.w * p.x) ps + b * total (fun p => p.w) ps = total (fun p => p.w * p.y) ps := by
  unfold polyfit at h
  simp only at h
  split_ifs at h with hd
  simp only [Option.some.injEq, Prod.mk.injEq] at h
  obtain ⟨rfl, rfl⟩ := h
  refine ⟨hd, ?_, ?_⟩
  · field_simp
    ring
  · field_simp
    ring

theorem polyfit_excess (ps : List Pt) (m b m' b' : ℚ) (h : polyfit ps = some (m, b)) :
    sumSq ps m' b' = sumSq ps m b + total (fun p => p.w * ((m' - m) * p.x + (b' - b)) ^ 2) ps := by
  obtain ⟨_, h1, h2⟩ := polyfit_normal ps m b h
  rw [sumSq_eq, sumSq_eq, quad_eq]
  linear_combination (2 * (m' - m)) * h1 + (2 * (b' - b)) * h2

theorem polyfit_unique (ps : List Pt) (hw : ∀ p ∈ ps, 0 < p.w) (m b m' b' : ℚ) (h : polyfit ps = some (m, b))
    (hle : sumSq ps m' b' ≤ sumSq ps m b) : m' = m ∧ b' = b := by
  have he := polyfit_excess ps m b m' b' h
  have hn : ∀ p ∈ ps, 0 ≤ p.w * ((m' - m) * p.x + (b' - b)) ^ 2 := fun p hp => mul_nonneg (hw p hp).le (sq_nonneg _)
  have h0 : total (fun p => p.w * ((m' - m) * p.x + (b' - b)) ^ 2) ps = 0 :=
    le_antisymm (by linarith) (total_nonneg _ ps hn)
  have hz : ∀ p ∈ ps, (m' - m) * p.x + (b' - b) = 0 := fun p hp =>
    pow_eq_zero_iff two_ne_zero |>.1 ((mul_eq_zero.1 (total_eq_zero _ ps hn h0 p hp)).resolve_left (hw p hp).ne')
  have hd := (polyfit_normal ps m b h).1
  rw [Ne, det_zero_iff ps hw] at hd
  push Not at hd
  obtain ⟨p, hp, q, hq, hne⟩ := hd
  have e1 := hz p hp
  have e2 := hz q hq
  have e3 : (m' - m) * (p.x - q.x) = 0 := by linear_combination e1 - e2
  have hm : m' = m := sub_eq_zero.1 ((mul_eq_zero.1 e3).resolve_right (sub_ne_zero.2 hne))
  refine ⟨hm, ?_⟩
  rw [hm] at e1
  linarith

/-! ## Scores -/

/-- The least score. -/
def IsLeast (best : ℚ) (rs : List Rec) : Prop := (∃ r ∈ rs, r.sse = best) ∧ ∀ r ∈ rs, best ≤ r.sse

theorem foldl_min (rs : List Rec) (m : ℚ) :
    let a := rs.foldl (fun m r => min m r.sse) m
    (a = m ∨ ∃ r ∈ rs, r.sse = a) ∧ a ≤ m ∧ ∀ r ∈ rs, a ≤ r.sse := by
  induction rs generalizing m with
  | nil => simp
  | cons r rs ih =>
    simp only [List.foldl_cons]
    obtain ⟨h1, h2, h3⟩ := ih (min m r.sse)
    refine ⟨?_, h2.trans (min_le_left _ _), ?_⟩
    · rcases h1 with h1 | ⟨q, hq, e⟩
      · rcases min_choice m r.sse with hm | hm
        · exact .inl (h1.trans hm)
        · exact .inr ⟨r, List.mem_cons_self, (h1.trans hm).symm⟩
      · exact .inr ⟨q, List.mem_cons_of_mem _ hq, e⟩
    · intro q hq
      rcases List.mem_cons.1 hq with rfl | hq
      · exact h2.trans (min_le_right _ _)
      · exact h3 q hq

theorem minScore_iff (rs : List Rec) (best : ℚ) : minScore rs = some best ↔ IsLeast best rs := by
  cases rs with
  | nil => simp [minScore, IsLeast]
  | cons r rs =>
    obtain ⟨h1, h2, h3⟩ := foldl_min rs r.sse
    simp only [minScore, Option.some.injEq]
    generalize List.foldl (fun m r => min m r.sse) r.sse rs = a at h1 h2 h3
    have ha : IsLeast a (r :: rs) := by
      refine ⟨?_, ?_⟩
      · rcases h1 with h1 | ⟨q, hq, e⟩
        · exact ⟨r, List.mem_cons_self, h1.symm⟩
        · exact ⟨q, List.mem_cons_of_mem _ hq, e⟩
      · intro q hq
        rcases List.mem_cons.1 hq with rfl | hq
        exacts [h2, h3 q hq]
    constructor
    · rintro rfl; exact ha
    · rintro ⟨⟨q, hq, rfl⟩, h⟩
      obtain ⟨p, hp, e⟩ := ha.1
      exact le_antisymm (ha.2 q hq) (e ▸ h p hp)

theorem least_unique (rs : List Rec) (a b : ℚ) (ha : IsLeast a rs) (hb : IsLeast b rs) : a = b := by
  have := (minScore_iff rs a).2 ha
  rw [(minScore_iff rs b).2 hb] at this
  injection this with this
  exact this.symm

/-- The weighted sum of squared deviations from a line: the deviation of each record is multiplied by the weight of its score,
`2*best/(score+best)`. -/
def deviation (best : ℚ) (rs : List Rec) (m b : ℚ) : ℚ :=
  (rs.map fun r => (2 * best / (r.sse + best) * (r.y - (m * r.x + b))) ^ 2).sum

/-- The points of records with positive scores. -/
def ptsOf (best : ℚ) (rs : List Rec) : List Pt := rs.map fun r => ⟨(2 * best / (r.sse + best)) ^ 2, r.x, r.y⟩

theorem weighted_eq (best : ℚ) (hb : 0 < best) (rs : List Rec) (h : ∀ r ∈ rs, best ≤ r.sse) :
    weighted best rs = some (ptsOf best rs) := by
  unfold weighted ptsOf
  induction rs with
  | nil => rfl
  | cons r rs ih =>
    have h1 : r.sse + best ≠ 0 := by
      have := h r List.mem_cons_self
      linarith
    rw [List.mapM_cons, ih fun q hq => h q (List.mem_cons_of_mem _ hq)]
    simp [Figures.weight, h1]

theorem ptsOf_pos (best : ℚ) (hb : 0 < best) (rs : List Rec) (h : ∀ r ∈ rs, best ≤ r.sse) : ∀ p ∈ ptsOf best rs, 0 < p.w := by
  intro p hp
  obtain ⟨r, hr, rfl⟩ := List.mem_map.1 hp
  have h1 : 0 < r.sse + best := by
    have := h r hr
    linarith
  show 0 < (2 * best / (r.sse + best)) ^ 2
  positivity

theorem sumSq_ptsOf (best : ℚ) (rs : List Rec) (m b : ℚ) : sumSq (ptsOf best rs) m b = deviation best rs m b := by
  unfold sumSq total ptsOf deviation
  rw [List.map_map]
  congr 1
  refine List.map_congr_left fun r _ => ?_
  simp only [Function.comp_apply]
  ring

theorem lineFit_eq (best : ℚ) (hb : 0 < best) (rs : List Rec) (h : IsLeast best rs) :
    lineFit rs = polyfit (ptsOf best rs) := by
  unfold lineFit
  rw [(minScore_iff rs best).2 h, Option.bind_some, weighted_eq best hb rs h.2, Option.bind_some]

/-- C125: the line fitted is the one with the least weighted squared deviations, and no other line has as little. -/
theorem C125_best (best : ℚ) (hb : 0 < best) (rs : List Rec) (h : IsLeast best rs) (m b : ℚ) (hf : lineFit rs = some (m, b)) :
    (∀ m' b', deviation best rs m b ≤ deviation best rs m' b') ∧
      ∀ m' b', deviation best rs m' b' ≤ deviation best rs m b → m' = m ∧ b' = b := by
  rw [lineFit_eq best hb rs h] at hf
  have hw := ptsOf_pos best hb rs h.2
  refine ⟨fun m' b' => ?_, fun m' b' hle => ?_⟩
  · rw [← sumSq_ptsOf, ← sumSq_ptsOf, polyfit_excess _ m b m' b' hf]
    have := total_nonneg (fun p => p.w * ((m' - m) * p.x + (b' - b)) ^ 2) (ptsOf best rs) fun p hp =>
      mul_nonneg (hw p hp).le (sq_nonneg _)
    linarith
  · rw [← sumSq_ptsOf, ← sumSq_ptsOf] at hle
    exact polyfit_unique _ hw m b m' b' hf hle

/-- C125: with positive scores there is such a line exactly if not all records have the same `x`. -/
theorem C125_defined (best : ℚ) (hb : 0 < best) (rs : List Rec) (h : IsLeast best rs) :
    (lineFit rs).isSome ↔ ∃ r ∈ rs, ∃ r' ∈ rs, r.x ≠ r'.x := by
  rw [lineFit_eq best hb rs h]
  have hw := ptsOf_pos best hb rs h.2
  have hd := det_zero_iff _ hw
  have hs : (polyfit (ptsOf best rs)).isSome ↔ det (ptsOf best rs) ≠ 0 := by
    unfold polyfit det
    simp only
    split_ifs with hz <;> simp [hz]
  rw [hs, Ne, hd]
  push Not
  constructor
  · rintro ⟨p, hp, q, hq, hne⟩
    obtain ⟨r, hr, rfl⟩ := List.mem_map.1 hp
    obtain ⟨r', hr', rfl⟩ := List.mem_map.1 hq
    exact ⟨r, hr, r', hr', hne⟩
  · rintro ⟨r, hr, r', hr', hne⟩
    exact ⟨_, List.mem_map_of_mem hr, _, List.mem_map_of_mem hr', hne⟩

/-- A line is the one fitted if no line has less deviation. -/
theorem lineFit_of_best (best : ℚ) (hb : 0 < best) (rs : List Rec) (h : IsLeast best rs)
    (h2 : ∃ r ∈ rs, ∃ r' ∈ rs, r.x ≠ r'.x) (m b : ℚ) (hm : ∀ m' b', deviation best rs m b ≤ deviation best rs m' b') :
    lineFit rs = some (m, b) := by
  have hs := (C125_defined best hb rs h).2 h2
  obtain ⟨⟨m', b'⟩, e⟩ := Option.isSome_iff_exists.1 hs
  obtain ⟨rfl, rfl⟩ := (C125_best best hb rs h m' b' e).2 m b (hm m' b')
  exact e

theorem deviation_nonneg (best : ℚ) (rs : List Rec) (m b : ℚ) : 0 ≤ deviation best rs m b :=
  List.sum_nonneg fun x hx => by
    obtain ⟨r, _, rfl⟩ := List.mem_map.1 hx
    exact sq_nonneg _

/-- C125: if all records lie on a line, that line is fitted, whatever their scores. -/
theorem C125_exact (best : ℚ) (hb : 0 < best) (rs : List Rec) (h : IsLeast best rs)
    (h2 : ∃ r ∈ rs, ∃ r' ∈ rs, r.x ≠ r'.x) (m b : ℚ) (hl : ∀ r ∈ rs, r.y = m * r.x + b) : lineFit rs = some (m, b) := by
  refine lineFit_of_best best hb rs h h2 m b fun m' b' => ?_
  have : deviation best rs m b = 0 := by
    unfold deviation
    rw [List.map_congr_left (g := fun _ => (0 : ℚ)) fun r hr => by rw [hl r hr]; ring]
    simp
  rw [this]
  exact deviation_nonneg best rs m' b'

/-- C125: the order of the records does not matter. -/
theorem C125_order (best : ℚ) (hb : 0 < best) (rs rs' : List Rec) (h : IsLeast best rs) (hp : rs ~ rs') :
    lineFit rs = lineFit rs' := by
  have h' : IsLeast best rs' := by
    obtain ⟨⟨r, hr, e⟩, hall⟩ := h
    exact ⟨⟨r, hp.mem_iff.1 hr, e⟩, fun q hq => hall q (hp.mem_iff.2 hq)⟩
  rw [lineFit_eq best hb rs h, lineFit_eq best hb rs' h']
  have ht : ∀ f, total f (ptsOf best rs) = total f (ptsOf best rs') := fun f =>
    (((hp.map _).map f).sum_eq)
  unfold polyfit
  simp only [ht]

/-- C125: other units for the parameters or for the scores give the line in those units. -/
theorem C125_units (best : ℚ) (hb : 0 < best) (rs : List Rec) (h : IsLeast best rs) (c p q s t : ℚ) (hc : 0 < c) (hp : p ≠ 0)
    (hs : s ≠ 0) (m b : ℚ) (hf : lineFit rs = some (m, b)) :
    lineFit (rs.map fun r => ⟨c * r.sse, p * r.x + q, s * r.y + t⟩) = some (s * m / p, s * b + t - s * m / p * q) := by
  have hL : IsLeast (c * best) (rs.map fun r => ⟨c * r.sse, p * r.x + q, s * r.y + t⟩) := by
    obtain ⟨⟨r, hr, e⟩, hall⟩ := h
    refine ⟨⟨_, List.mem_map_of_mem hr, by rw [e]⟩, ?_⟩
    intro r' hr'
    obtain ⟨r0, hr0, rfl⟩ := List.mem_map.1 hr'
    exact mul_le_mul_of_nonneg_left (hall r0 hr0) hc.le
  have hdev : ∀ m' b', deviation (c * best) (rs.map fun r => ⟨c * r.sse, p * r.x + q, s * r.y + t⟩) (s * m' / p)
      (s * b' + t - s * m' / p * q) = s ^ 2 * deviation best rs m' b' := by
    intro m' b'
    unfold deviation
    rw [List.map_map, ← List.sum_map_mul_left]
    congr 1
    refine List.map_congr_left fun r hr => ?_
    have h1 : r.sse + best ≠ 0 := by
      have := h.2 r hr
      linarith
    simp only [Function.comp_apply]
    have e1 : 2 * (c * best) / (c * r.sse + c * best) = 2 * best / (r.sse + best) := by
      rw [← mul_add, ← mul_left_comm, mul_div_mul_left _ _ hc.ne']
    rw [e1]
    field_simp
    ring
  have h2 : ∃ r ∈ rs, ∃ r' ∈ rs, r.x ≠ r'.x := (C125_defined best hb rs h).1 (by rw [hf]; rfl)
  refine lineFit_of_best (c * best) (by positivity) _ hL ?_ _ _ fun m' b' => ?_
  · obtain ⟨r, hr, r', hr', hne⟩ := h2
    refine ⟨_, List.mem_map_of_mem hr, _, List.mem_map_of_mem hr', fun e => hne ?_⟩
    simp only at e
    exact mul_left_cancel₀ hp (by linarith)
  · have e := hdev (p * m' / s) ((b' - t + m' * q) / s)
    have e1 : s * (p * m' / s) / p = m' := by field_simp
    have e2 : s * ((b' - t + m' * q) / s) + t - m' * q = b' := by field_simp; ring
    rw [e1, e2] at e
    rw [hdev, e]
    exact mul_le_mul_of_nonneg_left ((C125_best best hb rs h m b hf).1 _ _) (sq_nonneg s)

/-- C125, negation: with a perfect best score there is no line, although the records may lie on one. -/
theorem C125_perfect (rs : List Rec) (h : IsLeast 0 rs) : lineFit rs = none := by
  unfold lineFit
  rw [(minScore_iff rs 0).2 h, Option.bind_some]
  obtain ⟨⟨r, hr, e⟩, -⟩ := h
  have : weighted 0 rs = none := by
    unfold weighted
    induction rs with
    | nil => simp at hr
    | cons q rs ih =>
      rw [List.mapM_cons]
      rcases List.mem_cons.1 hr with rfl | hr
      · simp [Figures.weight, e]
      · rw [ih hr]
        cases (Figures.weight 0 q.sse) <;> simp
  rw [this]
  rfl

/-- C125: the line drawn is that of the better half of the records: the first `N/2 + 1` in the order of their scores. -/
theorem C125_half (X : ℕ → ℕ → ℚ) (K : List ℕ) (k1 k2 : ℕ) :
    plotRecs X K k1 k2 = (K.take (K.length / 2 + 1)).map fun k => ⟨X k 0, X k k1, X k k2⟩ := by
  unfold plotRecs Analysis.portion
  have e : (1 / 2 * (K.length : ℚ)).floor.toNat = K.length / 2 := by
    have : (1 / 2 * (K.length : ℚ)).floor = ((K.length / 2 : ℕ) : ℤ) := by
      show ⌊(1 / 2 * (K.length : ℚ))⌋ = _
      rw [Int.floor_eq_iff]
      have h1 := Nat.div_add_mod K.length 2
      have h2 : K.length % 2 < 2 := Nat.mod_lt _ (by decide)
      have h3 : (K.length : ℚ) = 2 * ((K.length / 2 : ℕ) : ℚ) + ((K.length % 2 : ℕ) : ℚ) := by exact_mod_cast h1.symm
      have h4 : ((K.length % 2 : ℕ) : ℚ) ≤ 1 := by exact_mod_cast (by omega)
      have h5 : (0 : ℚ) ≤ ((K.length % 2 : ℕ) : ℚ) := Nat.cast_nonneg _
      constructor
      · rw [Int.cast_natCast]; linarith
      · rw [Int.cast_natCast]; linarith
    rw [this]
    rfl
  have e0 : ((0 : ℚ) * (K.length : ℚ)).floor.toNat = 0 := by rw [zero_mul]; rfl
  rw [e, e0, List.drop_zero]

/-- What the formats write can be read back, up to the rounding to six digits. -/
def Reads (rnd : ℚ → ℚ) (read : List Char → Option ℚ) (plus plain : ℚ → List Char) : Prop :=
  (∀ x, read (plus x) = some (rnd x)) ∧ (∀ x, 0 ≤ x → read (plain x) = some (rnd x))

/-- C125: the text of a line, read as "slope times X plus or minus a number", is the line, up to the rounding of the numbers. -/
theorem C125_text (rnd : ℚ → ℚ) (read : List Char → Option ℚ) (plus plain : ℚ → List Char) (hr : Reads rnd read plus plain)
    (m b : ℚ) :
    ∃ slope sign rest, prettyLine plus plain m b = "Y=".toList ++ slope ++ "*X ".toList ++ [sign, ' '] ++ rest ∧
      read slope = some (rnd m) ∧ ((sign = '+' ∧ 0 ≤ b ∧ read rest = some (rnd b)) ∨
        (sign = '-' ∧ b < 0 ∧ read rest = some (rnd (-b)))) := by
  by_cases hb : b < 0
  · refine ⟨plus m, '-', plain |b|, ?_, hr.1 m, .inr ⟨rfl, hb, ?_⟩⟩
    · simp [prettyLine, hb]
    · rw [hr.2 _ (abs_nonneg b), abs_of_neg hb]
  · refine ⟨plus m, '+', plain |b|, ?_, hr.1 m, .inl ⟨rfl, not_lt.1 hb, ?_⟩⟩
    · simp [prettyLine, hb]
    · rw [hr.2 _ (abs_nonneg b), abs_of_nonneg (not_lt.1 hb)]

namespace Demo

/-- Three records, not on a line. -/
def recs : List Rec := [⟨1, 0, 1⟩, ⟨1, 1, 4⟩, ⟨3, 2, 5⟩]

theorem least : IsLeast 1 recs := by
  refine ⟨⟨⟨1, 0, 1⟩, by decide, rfl⟩, ?_⟩
  intro r hr
  simp only [recs, List.mem_cons, List.not_mem_nil, or_false] at hr
  rcases hr with rfl | rfl | rfl <;> norm_num

theorem fit : lineFit recs = some (7 / 3, 11 / 9) := by
  simp [lineFit, recs, minScore, weighted, Figures.weight]
  norm_num [polyfit, total]

example := C125_best 1 (by norm_num) recs least (7 / 3) (11 / 9) fit
example := C125_defined 1 (by norm_num) recs least
example := C125_exact 1 (by norm_num) [⟨1, 0, 1⟩, ⟨4, 2, 5⟩, ⟨9, 3, 7⟩]
  ⟨⟨⟨1, 0, 1⟩, by decide, rfl⟩, by
    intro r hr
    simp only [List.mem_cons, List.not_mem_nil, or_false] at hr
    rcases hr with rfl | rfl | rfl <;> norm_num⟩
  ⟨⟨1, 0, 1⟩, by decide, ⟨4, 2, 5⟩, by decide, by norm_num⟩ 2 1 (by
    intro r hr
    simp only [List.mem_cons, List.not_mem_nil, or_false] at hr
    rcases hr with rfl | rfl | rfl <;> norm_num)
example := C125_order 1 (by norm_num) recs recs.reverse least (List.reverse_perm _).symm
example := C125_units 1 (by norm_num) recs least 10 2 1 3 (-1) (by norm_num) (by norm_num) (by norm_num) _ _ fit
example := C125_perfect [⟨0, 0, 1⟩, ⟨1, 1, 4⟩] ⟨⟨⟨0, 0, 1⟩, by decide, rfl⟩, by
    intro r hr
    simp only [List.mem_cons, List.not_mem_nil, or_false] at hr
    rcases hr with rfl | rfl <;> norm_num⟩
example := C125_half (fun k j => (k + j : ℚ)) [4, 2, 7, 1, 0] 1 2
/-- Numbers written as signed strokes, rounded to whole numbers. -/
def strokes (x : ℚ) : List Char := (if x < 0 then '-' else '+') :: List.replicate ⌊|x|⌋.toNat '|'
example := C125_text (fun x => (if x < 0 then -1 else 1) * (⌊|x|⌋.toNat : ℚ))
  (fun t => match t with | '-' :: l => some (-1 * (l.length : ℚ)) | _ :: l => some (1 * (l.length : ℚ)) | [] => none) strokes strokes
  ⟨fun x => by unfold strokes; by_cases h : x < 0 <;> simp [h], fun x _ => by unfold strokes; by_cases h : x < 0 <;> simp [h]⟩ 2 (-3)

end Demo

end LineFit
end Ade
