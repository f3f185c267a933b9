import Verif.Model.Summary
import Verif.Lemmas.Cases
import Verif.Props.Population
import Verif.Props.Setup
import Mathlib.Algebra.Order.BigOperators.Group.List

/-!
# Property C120: the summary of a population is true
-/

set_option autoImplicit false

namespace Ade
namespace Summary

/-! ## Specification -/

/-- `x` is the least of the numbers in `xs`, leaving NaN out. -/
def Least (xs : List PyFloat) (x : PyFloat) : Prop :=
  x ∈ xs ∧ x ≠ .nan ∧ ∀ y ∈ xs, y.lt x = false

/-- `x` is the greatest of the numbers in `xs`, leaving NaN out. -/
def Greatest (xs : List PyFloat) (x : PyFloat) : Prop :=
  x ∈ xs ∧ x ≠ .nan ∧ ∀ y ∈ xs, x.lt y = false

/-- How long the last evaluation took that ended with a result. -/
def lastTime : List Event → Option ℚ
  | [] => none
  | e :: es =>
    match lastTime es, e with
    | some t, _ => some t
    | none, .done t0 t1 _ => some (t1 - t0)
    | none, _ => none

/-! ## Lemmas -/

theorem least_foldl (xs : List PyFloat) (x : PyFloat) (hx : x ≠ .nan) :
    Least (x :: xs) (xs.foldl (fun m y => if y.lt m then y else m) x) := by
  induction xs using List.reverseRecOn with
  | nil => exact ⟨by simp, hx, fun y hy => by simp at hy; subst hy; exact PyFloat.lt_irrefl _⟩
  | append_singleton xs z ih =>
    rw [List.foldl_append, List.foldl_cons, List.foldl_nil]
    generalize xs.foldl (fun m y => if y.lt m then y else m) x = m at ih
    obtain ⟨h1, h2, h3⟩ := ih
    have hcase : ∀ y ∈ x :: (xs ++ [z]), y ∈ x :: xs ∨ y = z := by
      intro y hy
      simp only [List.mem_cons, List.mem_append, List.not_mem_nil, or_false] at hy ⊢
      tauto
    split
    · rename_i hz
      refine ⟨by simp, fun h => by subst h; simp [PyFloat.lt] at hz, fun y hy => ?_⟩
      rcases hcase y hy with h | rfl
      · by_contra hc
        have := PyFloat.lt_trans (by simpa using hc) hz
        rw [h3 y h] at this
        cases this
      · exact PyFloat.lt_irrefl _
    · rename_i hz
      refine ⟨?_, h2, fun y hy => ?_⟩
      · simp only [List.mem_cons, List.mem_append] at h1 ⊢
        tauto
      · rcases hcase y hy with h | rfl
        · exact h3 y h
        · simpa using hz

theorem greatest_foldl (xs : List PyFloat) (x : PyFloat) (hx : x ≠ .nan) :
    Greatest (x :: xs) (xs.foldl (fun m y => if m.lt y then y else m) x) := by
  induction xs using List.reverseRecOn with
  | nil => exact ⟨by simp, hx, fun y hy => by simp at hy; subst hy; exact PyFloat.lt_irrefl _⟩
  | append_singleton xs z ih =>
    rw [List.foldl_append, List.foldl_cons, List.foldl_nil]
    generalize xs.foldl (fun m y => if m.lt y then y else m) x = m at ih
    obtain ⟨h1, h2, h3⟩ := ih
    have hcase : ∀ y ∈ x :: (xs ++ [z]), y ∈ x :: xs ∨ y = z := by
      intro y hy
      simp only [List.mem_cons, List.mem_append, List.not_mem_nil, or_false] at hy ⊢
      tauto
    split
    · rename_i hz
      refine ⟨by simp, fun h => by subst h; cases m <;> simp [PyFloat.lt] at hz, fun y hy => ?_⟩
      rcases hcase y hy with h | rfl
      · by_contra hc
        have := PyFloat.lt_trans hz (by simpa using hc)
        rw [h3 y h] at this
        cases this
      · exact PyFloat.lt_irrefl _
    · rename_i hz
      refine ⟨?_, h2, fun y hy => ?_⟩
      · simp only [List.mem_cons, List.mem_append] at h1 ⊢
        tauto
      · rcases hcase y hy with h | rfl
        · exact h3 y h
        · simpa using hz

theorem foldl_nan_min (xs : List PyFloat) :
    xs.foldl (fun m y => if PyFloat.lt y m then y else m) .nan = .nan := by
  induction xs with
  | nil => rfl
  | cons x xs ih => rw [List.foldl_cons, if_neg (by cases x <;> simp [PyFloat.lt])]; exact ih

theorem foldl_nan_max (xs : List PyFloat) :
    xs.foldl (fun m y => if PyFloat.lt m y then y else m) .nan = .nan := by
  induction xs with
  | nil => rfl
  | cons x xs ih => rw [List.foldl_cons, if_neg (by simp [PyFloat.lt])]; exact ih

theorem head_cons (Np : ℕ) (m : Timed) (ms : List Timed) :
    head Np (m :: ms) = some ⟨Np,
      (ms.map fun i => i.ind.toFloat).foldl (fun m y => if y.lt m then y else m) m.ind.toFloat,
      (ms.map fun i => i.ind.toFloat).foldl (fun m y => if m.lt y then y else m) m.ind.toFloat,
      mean (evalTimes (m :: ms)), min columnsMax (m :: ms).length⟩ := rfl

theorem evalTimes_length (ms : List Timed) : (evalTimes ms).length = ms.countP fun m => m.dt.isSome := by
  unfold evalTimes
  induction ms with
  | nil => rfl
  | cons m ms ih => cases h : m.dt <;> simp [h, ih]

theorem evalTimes_sum (ms : List Timed) : (evalTimes ms).sum = (ms.map fun m => m.dt.getD 0).sum := by
  unfold evalTimes
  induction ms with
  | nil => rfl
  | cons m ms ih => cases h : m.dt <;> simp [h, ih]

/-! ## C120 -/

/-- C120: a population is called empty exactly when it has no members. -/
theorem C120_empty (Np : ℕ) (ms : List Timed) : head Np ms = none ↔ ms = [] := by
  cases ms with
  | nil => exact ⟨fun _ => rfl, fun _ => rfl⟩
  | cons m ms => rw [head_cons]; simp

/-- C120, what does hold of the range of scores: unless the score of the first member is not a number, it goes from the
least to the greatest score of all members having a number for it.

The full property asks for that whenever any member has one; `C120_nan_first` shows that the code does not do so. -/
theorem C120_range_partial (Np : ℕ) (ms : List Timed) (h : Head) (hh : head Np ms = some h)
    (hn : ∀ m, ms.head? = some m → m.ind.toFloat ≠ .nan) :
    Least (ms.map fun i => i.ind.toFloat) h.least ∧ Greatest (ms.map fun i => i.ind.toFloat) h.greatest := by
  cases ms with
  | nil => cases hh
  | cons m ms =>
    rw [head_cons] at hh
    injection hh with hh
    subst hh
    exact ⟨least_foldl _ _ (hn m rfl), greatest_foldl _ _ (hn m rfl)⟩

/-- C120, negation: if the score of the first member is not a number, neither end of the range is, whatever the other
scores are. -/
theorem C120_nan_first (Np : ℕ) (m : Timed) (ms : List Timed) (hm : m.ind.toFloat = .nan) :
    ∃ h, head Np (m :: ms) = some h ∧ h.least = .nan ∧ h.greatest = .nan :=
  ⟨_, head_cons Np m ms, by simp only [hm, foldl_nan_min], by simp only [hm, foldl_nan_max]⟩

/-- C120: the time of an individual is that of its last evaluation that ended with a result, however often it failed or
was saved and loaded since; a copy has none. -/
theorem C120_times (values : List ℚ) (es : List Event) :
    (es.foldl step (fresh values)).dt = lastTime es ∧ (copy (es.foldl step (fresh values))).dt = none := by
  refine ⟨?_, rfl⟩
  have gen : ∀ (es : List Event) (i : Timed), (es.foldl step i).dt = (lastTime es).or i.dt := by
    intro es
    induction es with
    | nil => intro i; rfl
    | cons e es ih =>
      intro i
      rw [List.foldl_cons, ih]
      cases h : lastTime es <;> cases e <;> simp [lastTime, h, step, done, failed, reload]
  rw [gen]
  simp [fresh]

/-- C120: the score in the range is that of the last evaluation, however often the individual was saved and loaded since: the
result if there was one, and not usable if the evaluation failed.  The values stay as they are. -/
theorem C120_scores (values : List ℚ) (before after : List Event) (ha : ∀ e ∈ after, e = .reload) :
    (∀ t0 t1 x, ((before ++ .done t0 t1 x :: after).foldl step (fresh values)).ind = ⟨x, values⟩) ∧
      ((before ++ .failed :: after).foldl step (fresh values)).ind.toBool = false ∧
      ((before ++ .failed :: after).foldl step (fresh values)).ind.values = values ∧
      (after.foldl step (fresh values)).ind = ⟨none, values⟩ := by
  have hk : ∀ i : Timed, after.foldl step i = i := by
    induction after with
    | nil => exact fun i => rfl
    | cons e es ih =>
      intro i
      rw [List.foldl_cons, ha e (by simp), ih fun e he => ha e (by simp [he])]
      rfl
  have hv : ∀ (es : List Event) (i : Timed), (es.foldl step i).ind.values = i.ind.values := by
    intro es
    induction es with
    | nil => exact fun i => rfl
    | cons e es ih => intro i; rw [List.foldl_cons, ih]; cases e <;> rfl
  refine ⟨fun t0 t1 x => ?_, ?_, ?_, ?_⟩
  · rw [List.foldl_append, List.foldl_cons, hk]
    have := hv before (fresh values)
    simp only [step, done, Individual.setSSE, this]
    rfl
  · rw [List.foldl_append, List.foldl_cons, hk]
    simp only [step, failed, Individual.setSSE, Individual.toBool]
    decide +kernel
  · exact hv _ _
  · rw [hk]; rfl

/-- C120: the average printed is the mean of the times of the members that have one; it is not a number exactly if none
has. It lies between the shortest and the longest time. -/
theorem C120_average (Np : ℕ) (ms : List Timed) (h : Head) (hh : head Np ms = some h) :
    (h.average = .nan ↔ ∀ m ∈ ms, m.dt = none) ∧
    (∀ a, h.average = .fin a → a * (ms.countP fun m => m.dt.isSome) = (ms.map fun m => m.dt.getD 0).sum ∧
      ∀ lo hi, (∀ m ∈ ms, ∀ t, m.dt = some t → lo ≤ t ∧ t ≤ hi) → lo ≤ a ∧ a ≤ hi) := by
  have ha : h.average = mean (evalTimes ms) := by
    cases ms with
    | nil => cases hh
    | cons m ms => rw [head_cons] at hh; injection hh with hh; subst hh; rfl
  have hnil : evalTimes ms = [] ↔ ∀ m ∈ ms, m.dt = none := by
    unfold evalTimes
    rw [List.filterMap_eq_nil_iff]
  have hcount := evalTimes_length ms
  have hsum := evalTimes_sum ms
  rw [ha]
  refine ⟨?_, fun a haa => ?_⟩
  · unfold mean
    rw [← hnil]
    split <;> simp_all
  · unfold mean at haa
    split at haa
    · cases haa
    · rename_i hne
      injection haa with haa
      have hpos : (0 : ℚ) < (evalTimes ms).length := by
        exact_mod_cast List.length_pos_iff.2 hne
      refine ⟨?_, fun lo hi hb => ?_⟩
      · rw [← haa, ← hcount, ← hsum, div_mul_cancel₀ _ hpos.ne']
      · have hb' : ∀ t ∈ evalTimes ms, lo ≤ t ∧ t ≤ hi := by
          intro t ht
          obtain ⟨m, hm, hmt⟩ := List.mem_filterMap.1 ht
          exact hb m hm t hmt
        have h1 := List.card_nsmul_le_sum (evalTimes ms) lo fun t ht => (hb' t ht).1
        have h2 := List.sum_le_card_nsmul (evalTimes ms) hi fun t ht => (hb' t ht).2
        rw [nsmul_eq_mul] at h1 h2
        rw [← haa, le_div_iff₀ hpos, div_le_iff₀ hpos]
        exact ⟨by linarith, by linarith⟩

/-- C120, what does hold of the number of individuals: it is that of the members after a complete setup.

The full property asks for that at any time; `C120_number_aborted` shows that the code does not do so. -/
theorem C120_number_partial (cfg : Setup.Cfg) (hc : Setup.Proper cfg) (es : List Setup.Event) (s : Setup.St)
    (hr : Setup.run cfg Setup.start es = some s) (hd : s.phase = .finished true) (ms : List Timed)
    (hms : ms.map Timed.ind = s.members) (h : Head) (hh : head cfg.Np ms = some h) : h.number = ms.length := by
  have hl : ms.length = cfg.Np := by
    rw [← (Setup.C17_blank_setup cfg hc es s hr hd).1, ← hms, List.length_map]
  cases ms with
  | nil => cases hh
  | cons m ms => rw [head_cons] at hh; injection hh with hh; subst hh; exact hl.symm

/-- C120: the members shown are the best ones, in order: as many as are announced, seven or all, and none of the others
is better than one of them. -/
theorem C120_shown (sort : List PyFloat → List ℕ) (hs : Sorts sort) (ops : List Population.Op) (Np : ℕ)
    (ms : List Timed) (h : Head) (hh : head Np ms = some h)
    (hms : ms.map Timed.ind = (Population.run sort Population.empty ops).members) :
    let tops := shown sort (Population.run sort Population.empty ops)
    h.top = min 7 ms.length ∧ tops.length = h.top ∧ (tops.Pairwise fun i j => RanksBefore i.toFloat j.toFloat) ∧
    ∃ rest, (tops ++ rest).Perm (ms.map Timed.ind) ∧
      ∀ i ∈ tops, ∀ j ∈ rest, RanksBefore i.toFloat j.toFloat ∧ j.lt i = false := by
  intro tops
  have hne : (Population.run sort Population.empty ops).members ≠ [] := by
    rw [← hms]
    cases ms with
    | nil => cases hh
    | cons m ms => simp
  obtain ⟨l, hl, hperm, hord⟩ := Population.C15_sorted_current sort hs ops hne
  have htops : tops = l.take columnsMax := by
    show shown sort _ = _
    unfold shown
    rw [hl]
    rfl
  have htop : h.top = min 7 ms.length := by
    cases ms with
    | nil => cases hh
    | cons m ms => rw [head_cons] at hh; injection hh with hh; subst hh; rfl
  have hlen : l.length = ms.length := by rw [hperm.length_eq, ← hms, List.length_map]
  refine ⟨htop, ?_, ?_, l.drop columnsMax, ?_, ?_⟩
  · rw [htops, htop, List.length_take, hlen]; rfl
  · rw [htops]; exact hord.sublist (List.take_sublist _ _)
  · rw [htops, List.take_append_drop, hms]; exact hperm
  · rw [← List.take_append_drop columnsMax l, List.pairwise_append] at hord
    intro i hi j hj
    rw [htops] at hi
    have := hord.2.2 i hi j hj
    exact ⟨this, this.not_lt⟩

/-! ## Examples -/

/-- C120, negation on a witness: a setup for three members was aborted after the first one was evaluated; the summary
still says three. -/
theorem C120_number_aborted : ∃ s : Setup.St,
    Setup.run Setup.demo Setup.start [.resume, .finish 0 (.done (some (.fin 4))), .abort, .resume, .resume] = some s ∧
      s.phase = .finished false ∧ s.members.length = 1 ∧
      ∀ ms : List Timed, ms.map Timed.ind = s.members →
        ∃ h, head Setup.demo.Np ms = some h ∧ h.number = 3 := by
  refine ⟨_, eq_get (by decide +kernel), by decide +kernel, ?_⟩
  have hl : ((Setup.run Setup.demo Setup.start
    [.resume, .finish 0 (.done (some (.fin 4))), .abort, .resume, .resume]).get (by decide +kernel)).members.length = 1 := by
    decide +kernel
  refine ⟨hl, fun ms hms => ?_⟩
  cases ms with
  | nil => rw [← hms] at hl; cases hl
  | cons m ms => exact ⟨_, head_cons _ _ _, rfl⟩

/-- Three members: two with times, one of them without a score. -/
def three : List Timed :=
  [⟨⟨some (.fin 4), [5]⟩, some 1⟩, ⟨⟨some .nan, [6]⟩, some 3⟩, ⟨⟨some (.fin 2), [7]⟩, none⟩]

example : head 20 three = some ⟨20, .fin 2, .fin 4, .fin 2, 3⟩ := by decide +kernel

example := C120_range_partial 20 three ⟨20, .fin 2, .fin 4, .fin 2, 3⟩ (by decide +kernel)
  (by intro m hm; injection hm with hm; subst hm; decide +kernel)

example := C120_nan_first 20 ⟨⟨some .nan, [6]⟩, some 3⟩ three (by decide +kernel)

example := C120_scores [5] [.done 1 3 (some (.fin 4))] [.reload, .reload] (by simp)

example := C120_times [5] [.done 1 3 (some (.fin 4)), .failed, .reload]

example := C120_average 20 three ⟨20, .fin 2, .fin 4, .fin 2, 3⟩ (by decide +kernel)

example := C120_number_partial Setup.demo Setup.demo_proper Setup.demoOk Setup.demoEnd Setup.demoEnd_run
  (by decide +kernel) (Setup.demoEnd.members.map fun i => ⟨i, some 1⟩) (by decide +kernel)
  ((head Setup.demo.Np (Setup.demoEnd.members.map fun i => ⟨i, some 1⟩)).get (by decide +kernel)) (eq_get _)

example := C120_shown Population.stableSort Population.stableSort_sorts [.refill (three.map Timed.ind)] 20 three
  ⟨20, .fin 2, .fin 4, .fin 2, 3⟩ (by decide +kernel) rfl

end Summary
end Ade
