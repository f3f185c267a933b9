import Verif.Model.FanControl
import Mathlib.Tactic.Linarith
import Mathlib.Tactic.NormNum
import Mathlib.Tactic.FieldSimp
import Mathlib.Tactic.Ring

/-!
# The ventilation fan of the usage example (C152)
-/

set_option autoImplicit false

namespace Ade
namespace FanControl

/-! ## Specification -/

/-- Specification: settings that make sense. -/
structure Sane (c : Settings) : Prop where
  range : c.t0 < c.high
  diff : 0 ≤ c.diff
  hyst : 0 ≤ c.hyst

/-- Specification: the difference asked for at an inside temperature: a line through the difference at the nominal temperature and zero
at the highest one, and zero above. -/
def Needed (c : Settings) (inside d : ℚ) : Prop :=
  (inside ≤ c.high → d * (c.high - c.t0) = c.diff * (c.high - inside)) ∧ (c.high ≤ inside → d = 0)

/-- Specification: what is written to the pin, in order. -/
def writes : List Act → List (ℚ × Bool)
  | [] => []
  | .write t b :: as => (t, b) :: writes as
  | .log _ _ _ _ :: as => writes as

/-- Specification: two transitions that may follow each other. -/
def Follows (c : Settings) (w w' : ℚ × Bool) : Prop := w'.2 = !w.2 ∧ c.rest ≤ w'.1 - w.1

/-! ## Lemmas -/

theorem writes_append (l l' : List Act) : writes (l ++ l') = writes l ++ writes l' := by
  induction l with
  | nil => rfl
  | cons a l ih => cases a <;> simp [writes, ih]

theorem tempDiff_eq (c : Settings) (h : c.t0 < c.high) (x : ℚ) :
    tempDiff c x = max 0 (c.diff * (c.high - x) / (c.high - c.t0)) := by
  have h0 : c.high - c.t0 ≠ 0 := by linarith
  unfold tempDiff
  dsimp only
  congr 1
  field_simp
  ring

theorem tempDiff_anti (c : Settings) (hc : Sane c) (x y : ℚ) (h : x ≤ y) : tempDiff c y ≤ tempDiff c x := by
  rw [tempDiff_eq c hc.range, tempDiff_eq c hc.range]
  have h0 : 0 < c.high - c.t0 := by linarith [hc.range]
  apply max_le_max le_rfl
  rw [div_le_div_iff_of_pos_right h0]
  exact mul_le_mul_of_nonneg_left (by linarith) hc.diff

theorem setFan_cases (c : Settings) (t : ℚ) (b : Bool) (now : ℚ) (on : Bool) :
    setFan c ⟨t, some b⟩ now on = ⟨⟨t, some b⟩, [], now, b⟩ ∨
      (on = !b ∧ c.rest ≤ now - t ∧ setFan c ⟨t, some b⟩ now on = switch now on) := by
  unfold setFan
  dsimp only
  split_ifs with h1 h2
  · left; simp at h1; subst h1; rfl
  · left; rfl
  · right
    refine ⟨?_, by linarith, rfl⟩
    cases on <;> cases b <;> simp_all

/-- The iterations after a transition at `t`: each goes on from the last one. -/
theorem step_cases (c : Settings) (t : ℚ) (b : Bool) (e : Event) :
    ((step c ⟨t, some b⟩ e).1 = ⟨t, some b⟩ ∧ writes (step c ⟨t, some b⟩ e).2 = []) ∨
      ∃ now, c.rest ≤ now - t ∧ (step c ⟨t, some b⟩ e).1 = ⟨now, some !b⟩ ∧
        writes (step c ⟨t, some b⟩ e).2 = [(now, !b)] := by
  cases e with
  | waiting => left; exact ⟨rfl, rfl⟩
  | offline now =>
    rcases setFan_cases c t b now false with h | ⟨h1, h2, h3⟩
    · left; simp [step, h, writes]
    · right
      refine ⟨now, h2, ?_⟩
      simp only [step, h3, switch]
      rw [h1]
      exact ⟨rfl, rfl⟩
  | temps now o i =>
    rcases setFan_cases c t b now (decideFan c ⟨t, some b⟩ o i) with h | ⟨h1, h2, h3⟩
    · left; simp [step, h, writes]
    · right
      refine ⟨now, h2, ?_⟩
      simp only [step, h3, switch]
      rw [h1]
      exact ⟨rfl, rfl⟩

theorem iterate_chain (c : Settings) (es : List Event) : ∀ (t : ℚ) (b : Bool),
    ((t, b) :: writes (iterate c ⟨t, some b⟩ es)).IsChain (Follows c) := by
  induction es with
  | nil => intro t b; simp [iterate, writes]
  | cons e es ih =>
    intro t b
    unfold iterate
    rw [writes_append]
    rcases step_cases c t b e with ⟨h1, h2⟩ | ⟨now, h0, h1, h2⟩
    · rw [h1, h2]; exact ih t b
    · rw [h1, h2]
      exact List.IsChain.cons_cons ⟨rfl, h0⟩ (ih now !b)

theorem run_eq (c : Settings) (made now : ℚ) (es : List Event) :
    run c made now es = .write now false :: iterate c ⟨now, some false⟩ es := rfl

/-! ## Theorems -/

/-- C152: the fan is switched off at the beginning; from then on each transition is to the other state and takes place no
sooner than the minimum time after the one before, whatever the sensors show and whatever the clock does. -/
theorem C152_transitions (c : Settings) (made now : ℚ) (es : List Event) :
    ∃ ws, writes (run c made now es) = (now, false) :: ws ∧ ((now, false) :: ws).IsChain (Follows c) :=
  ⟨_, by rw [run_eq]; rfl, iterate_chain c es now false⟩

theorem iterate_log (c : Settings) (es : List Event) : ∀ (t : ℚ) (b : Bool) (pre post : List Act) (now o i : ℚ) (on : Bool),
    iterate c ⟨t, some b⟩ es = pre ++ .log now o i on :: post →
      ((t, b) :: writes pre).getLast?.map Prod.snd = some on := by
  induction es with
  | nil => intro t b pre post now o i on h; simp [iterate] at h
  | cons e es ih =>
    intro t b pre post now o i on h
    unfold iterate at h
    cases e with
    | waiting => exact ih t b pre post now o i on h
    | offline n =>
      rcases setFan_cases c t b n false with h1 | ⟨h1, _, h3⟩
      · simp only [step, h1, List.nil_append] at h
        exact ih t b pre post now o i on h
      · simp only [step, h3, switch, List.singleton_append] at h
        cases pre with
        | nil => simp at h
        | cons a pre =>
          simp only [List.cons_append, List.cons.injEq] at h
          obtain ⟨rfl, h⟩ := h
          have := ih n false pre post now o i on h
          simpa [writes, List.getLast?_cons_cons] using this
    | temps n o' i' =>
      rcases setFan_cases c t b n (decideFan c ⟨t, some b⟩ o' i') with h1 | ⟨h1, _, h3⟩
      · simp only [step, h1, List.nil_append, List.singleton_append] at h
        cases pre with
        | nil =>
          simp only [List.nil_append, List.cons.injEq, Act.log.injEq] at h
          simp [writes, h.1.2.2.2]
        | cons a pre =>
          simp only [List.cons_append, List.cons.injEq] at h
          obtain ⟨rfl, h⟩ := h
          have := ih t b pre post now o i on h
          simpa [writes] using this
      · simp only [step, h3, switch, List.cons_append, List.nil_append] at h
        cases pre with
        | nil => simp at h
        | cons a pre =>
          simp only [List.cons_append, List.cons.injEq] at h
          obtain ⟨rfl, h⟩ := h
          cases pre with
          | nil =>
            simp only [List.nil_append, List.cons.injEq, Act.log.injEq] at h
            simp [writes, ← h.1.2.2.2]
          | cons a pre =>
            simp only [List.cons_append, List.cons.injEq] at h
            obtain ⟨rfl, h⟩ := h
            have := ih n _ pre post now o i on h
            simpa [writes, List.getLast?_cons_cons] using this

/-- C152: the state logged with the temperatures is the one last written to the pin. -/
theorem C152_logged (c : Settings) (made now : ℚ) (es : List Event) (pre post : List Act) (t o i : ℚ) (on : Bool)
    (h : run c made now es = pre ++ .log t o i on :: post) : (writes pre).getLast?.map Prod.snd = some on := by
  rw [run_eq] at h
  cases pre with
  | nil => simp at h
  | cons a pre =>
    simp only [List.cons_append, List.cons.injEq] at h
    obtain ⟨rfl, h⟩ := h
    exact iterate_log c es now false pre post t o i on h

/-- C152: the difference of temperatures required is the one at the nominal temperature, falls in a line to zero at the highest
temperature, and is zero from there on; it never rises with the inside temperature. -/
theorem C152_required (c : Settings) (hc : Sane c) (x : ℚ) :
    Needed c x (tempDiff c x) ∧ 0 ≤ tempDiff c x ∧ tempDiff c c.t0 = c.diff ∧
      ∀ y, x ≤ y → tempDiff c y ≤ tempDiff c x := by
  have h0 : 0 < c.high - c.t0 := by linarith [hc.range]
  rw [tempDiff_eq c hc.range]
  refine ⟨⟨fun h => ?_, fun h => ?_⟩, le_max_left _ _, ?_, fun y h => ?_⟩
  · rw [max_eq_right (div_nonneg (mul_nonneg hc.diff (by linarith)) h0.le), div_mul_cancel₀ _ h0.ne']
  · exact max_eq_left (div_nonpos_of_nonpos_of_nonneg (mul_nonpos_of_nonneg_of_nonpos hc.diff (by linarith)) h0.le)
  · rw [tempDiff_eq c hc.range, mul_div_cancel_right₀ _ h0.ne']
    exact max_eq_right hc.diff
  · rw [← tempDiff_eq c hc.range]
    exact tempDiff_anti c hc x y h

theorem iterate_on (c : Settings) (es : List Event) : ∀ (t : ℚ) (b : Bool) (now : ℚ),
    .write now true ∈ iterate c ⟨t, some b⟩ es → ∃ o i, .temps now o i ∈ es ∧ c.low ≤ i ∧ tempDiff c i < i - o := by
  induction es with
  | nil => intro t b now h; simp [iterate] at h
  | cons e es ih =>
    intro t b now h
    unfold iterate at h
    have later : ∀ t b, .write now true ∈ iterate c ⟨t, some b⟩ es →
        ∃ o i, .temps now o i ∈ e :: es ∧ c.low ≤ i ∧ tempDiff c i < i - o := by
      intro t b h
      obtain ⟨o, i, h1, h2⟩ := ih t b now h
      exact ⟨o, i, List.mem_cons_of_mem _ h1, h2⟩
    cases e with
    | waiting => exact later t b h
    | offline n =>
      rcases setFan_cases c t b n false with h1 | ⟨h1, _, h3⟩
      · simp only [step, h1, List.nil_append] at h
        exact later t b h
      · simp only [step, h3, switch, List.singleton_append, List.mem_cons, Act.write.injEq, Bool.true_eq_false, and_false,
          false_or] at h
        exact later _ _ h
    | temps n o i =>
      rcases setFan_cases c t b n (decideFan c ⟨t, some b⟩ o i) with h1 | ⟨h1, _, h3⟩
      · simp only [step, h1, List.nil_append, List.singleton_append, List.mem_cons, reduceCtorEq, false_or] at h
        exact later t b h
      · simp only [step, h3, switch, List.nil_append, List.cons_append, List.mem_cons, Act.write.injEq, reduceCtorEq,
          false_or] at h
        rcases h with ⟨rfl, h⟩ | h
        · refine ⟨o, i, List.mem_cons_self, ?_⟩
          rw [← h] at h1
          have hb : b = false := by
            revert h1; cases b <;> decide
          subst hb
          simp only [decideFan, Option.some.injEq, Bool.false_eq_true, ↓reduceIte] at h
          split_ifs at h with h4
          exact ⟨not_lt.1 h4, of_decide_eq_true h.symm⟩
        · exact later _ _ h

/-- C152: the fan is switched on only on temperatures with the inside not below the lowest one and above the outside by more than the
difference required; so never when it is as hot outside as inside. -/
theorem C152_switched_on (c : Settings) (made now t : ℚ) (es : List Event) (h : .write t true ∈ run c made now es) :
    ∃ o i, .temps t o i ∈ es ∧ c.low ≤ i ∧ o + tempDiff c i < i ∧ o < i := by
  rw [run_eq] at h
  simp only [List.mem_cons, Act.write.injEq, Bool.true_eq_false, and_false, false_or] at h
  obtain ⟨o, i, h1, h2, h3⟩ := iterate_on c es now false t h
  have h0 : 0 ≤ tempDiff c i := le_max_left _ _
  exact ⟨o, i, h1, h2, by linarith, by linarith⟩

theorem decide_iff (c : Settings) (s : St) (o i : ℚ) :
    decideFan c s o i = true ↔ c.low ≤ (if s.on = some true then i + c.hyst else i) ∧
      o + tempDiff c (if s.on = some true then i + c.hyst else i) < (if s.on = some true then i + c.hyst else i) := by
  unfold decideFan
  dsimp only
  generalize (if s.on = some true then i + c.hyst else i) = x
  split_ifs with h
  · simp; intro h'; linarith
  · simp only [decide_eq_true_eq]
    constructor
    · intro h'; exact ⟨not_lt.1 h, by linarith⟩
    · rintro ⟨-, h'⟩; linarith

/-- C152: temperatures that ask for the fan when it is off ask for it when it is on. -/
theorem C152_hysteresis (c : Settings) (hc : Sane c) (s s' : St) (o i : ℚ) (hs : s.on ≠ some true) (hs' : s'.on = some true)
    (h : decideFan c s o i = true) : decideFan c s' o i = true := by
  rw [decide_iff] at h ⊢
  simp only [hs, hs', if_true, if_false] at h ⊢
  have h1 := tempDiff_anti c hc i (i + c.hyst) (by linarith [hc.hyst])
  exact ⟨by linarith [hc.hyst], by linarith [hc.hyst]⟩

theorem steady_on (c : Settings) (o i : ℚ) (es : List Event) (hs : ∀ e ∈ es, ∃ t, e = .temps t o i)
    (h : ∀ t, decideFan c ⟨t, some true⟩ o i = true) : ∀ t, writes (iterate c ⟨t, some true⟩ es) = [] := by
  induction es with
  | nil => intro t; rfl
  | cons e es ih =>
    intro t
    obtain ⟨n, rfl⟩ := hs e (by simp)
    have h2 := ih fun e he => hs e (List.mem_cons_of_mem _ he)
    unfold iterate
    simp only [step, h t]
    simp [setFan, writes, h2 t]

theorem steady_off (c : Settings) (o i : ℚ) (es : List Event) (hs : ∀ e ∈ es, ∃ t, e = .temps t o i) (r : Bool)
    (hr : ∀ t, decideFan c ⟨t, some false⟩ o i = r) (h : r = true → ∀ t, decideFan c ⟨t, some true⟩ o i = true) :
    ∀ t, (writes (iterate c ⟨t, some false⟩ es)).length ≤ 1 := by
  induction es with
  | nil => intro t; simp [iterate, writes]
  | cons e es ih =>
    intro t
    obtain ⟨n, rfl⟩ := hs e (by simp)
    have hs' : ∀ e ∈ es, ∃ t, e = .temps t o i := fun e he => hs e (List.mem_cons_of_mem _ he)
    unfold iterate
    rw [writes_append]
    rcases setFan_cases c t false n (decideFan c ⟨t, some false⟩ o i) with h1 | ⟨h1, _, h3⟩
    · simp only [step, h1]
      simpa [writes] using ih hs' t
    · simp only [step, h3, switch]
      rw [h1]
      rw [hr] at h1
      have := steady_on c o i es hs' (h h1) n
      simp [writes, this]

/-- C152: as long as the temperatures stay as they are, the fan is switched at most once after the beginning. -/
theorem C152_steady (c : Settings) (hc : Sane c) (made now o i : ℚ) (es : List Event)
    (hs : ∀ e ∈ es, ∃ t, e = .temps t o i) : (writes (run c made now es)).length ≤ 2 := by
  rw [run_eq]
  have := steady_off c o i es hs (decideFan c ⟨now, some false⟩ o i) (fun t => rfl)
    (fun h t => C152_hysteresis c hc ⟨now, some false⟩ ⟨t, some true⟩ o i (by simp) rfl h) now
  simp only [writes, List.length_cons]
  omega

/-- C152: from the highest temperature on, the fan is asked for whenever it is cooler outside, no matter whether it is on. -/
theorem C152_hot_partial (c : Settings) (hc : Sane c) (hl : c.low ≤ c.high) (s : St) (o i : ℚ) (hi : c.high ≤ i) (ho : o < i) :
    decideFan c s o i = true := by
  rw [decide_iff]
  have h : ∀ x, i ≤ x → c.low ≤ x ∧ o + tempDiff c x < x := by
    intro x hx
    have := ((C152_required c hc x).1.2 (by linarith))
    rw [this]
    exact ⟨by linarith, by linarith⟩
  split_ifs
  · exact h _ (by linarith [hc.hyst])
  · exact h _ le_rfl

/-- C152, where the comment on the setting is wrong: at equal temperatures the outside is not warmer, but a fan that is
off is not asked for, however hot it is. -/
theorem C152_as_hot (c : Settings) (s : St) (i : ℚ) (hs : s.on ≠ some true) : decideFan c s i i = false := by
  have h : decideFan c s i i ≠ true := by
    rw [Ne, decide_iff]
    simp only [hs, if_false]
    have h0 : 0 ≤ tempDiff c i := le_max_left _ _
    rintro ⟨-, h⟩
    linarith
  simpa using h

/-- C152: when the fan is on, it is asked for exactly if that would be so with a temperature inside that is higher by the hysteresis. -/
theorem C152_kept_on (c : Settings) (s s' : St) (o i : ℚ) (hs : s.on = some true) (hs' : s'.on = some false) :
    decideFan c s o i = decideFan c s' o (i + c.hyst) := by
  rw [Bool.eq_iff_iff, decide_iff, decide_iff]
  simp [hs, hs']

/-- C152, where the comments are wrong: a fan that is on is asked for below the lowest inside temperature, and when it is warmer outside
than inside. -/
theorem C152_below_low : (∃ o i, i < settings.low ∧ decideFan settings ⟨0, some true⟩ o i = true) ∧
    ∃ o i, i < o ∧ decideFan settings ⟨0, some true⟩ o i = true :=
  ⟨⟨5, 19 / 2, by norm_num [settings], by decide +kernel⟩, ⟨91 / 2, 45, by norm_num, by decide +kernel⟩⟩

/-- The state after some iterations is the last transition. -/
theorem iterate_append (c : Settings) (es es' : List Event) : ∀ (t : ℚ) (b : Bool), ∃ t' b',
    ((t, b) :: writes (iterate c ⟨t, some b⟩ es)).getLast? = some (t', b') ∧
      iterate c ⟨t, some b⟩ (es ++ es') = iterate c ⟨t, some b⟩ es ++ iterate c ⟨t', some b'⟩ es' := by
  induction es with
  | nil => intro t b; exact ⟨t, b, rfl, rfl⟩
  | cons e es ih =>
    intro t b
    rcases step_cases c t b e with ⟨h1, h2⟩ | ⟨now, _, h1, h2⟩
    · obtain ⟨t', b', h3, h4⟩ := ih t b
      refine ⟨t', b', ?_, ?_⟩
      · unfold iterate; rw [writes_append, h1, h2]; exact h3
      · simp only [List.cons_append, iterate, h1, h4, List.append_assoc]
    · obtain ⟨t', b', h3, h4⟩ := ih now !b
      refine ⟨t', b', ?_, ?_⟩
      · unfold iterate; rw [writes_append, h1, h2]
        simp only [List.singleton_append, List.getLast?_cons_cons]; exact h3
      · simp only [List.cons_append, iterate, h1, h4, List.append_assoc]

/-- C152: when a sensor is found offline and the last transition is long enough ago, the fan is off afterwards; nothing is
logged. -/
theorem C152_offline (c : Settings) (made now t : ℚ) (es : List Event) (w : ℚ × Bool)
    (hw : (writes (run c made now es)).getLast? = some w) (ht : c.rest ≤ t - w.1) :
    ∃ as, run c made now (es ++ [.offline t]) = run c made now es ++ as ∧
      as = (if w.2 then [.write t false] else []) := by
  simp only [run_eq] at hw ⊢
  obtain ⟨t', b', h1, h2⟩ := iterate_append c es [.offline t] now false
  have h3 : w = (t', b') := by
    have : ((now, false) :: writes (iterate c ⟨now, some false⟩ es)).getLast? = some w := hw
    rw [h1] at this
    simpa using this.symm
  subst h3
  refine ⟨_, by rw [h2]; rfl, ?_⟩
  cases b'
  · simp [iterate, step, setFan]
  · have : ¬ t - t' < c.rest := not_lt.2 ht
    simp [iterate, step, setFan, this, switch]

/-! ## Examples -/

theorem sane : Sane settings := ⟨by norm_num [settings], by norm_num [settings], by norm_num [settings]⟩

namespace Demo

/-- A warm day: the fan goes on, an hour later it is cool enough, then a sensor is lost. -/
def day : List Event := [.temps 10 15 25, .temps 700 15 25, .waiting, .temps 4300 18 20, .temps 4500 10 20, .temps 4900 10 20,
  .offline 5300]

example : writes (run settings 0 1 day) = [(1, false), (700, true), (4300, false), (4900, true), (5300, false)] := by
  decide +kernel

example := C152_transitions settings 0 1 day

example := C152_logged settings 0 1 day [.write 1 false] ((run settings 0 1 day).drop 2) 10 15 25 false (by decide +kernel)

example := C152_required settings sane 30

example := C152_switched_on settings 0 1 700 day (by decide +kernel)

example := C152_hysteresis settings sane ⟨0, none⟩ ⟨0, some true⟩ 15 25 (by decide) rfl (by decide +kernel)

example := C152_steady settings sane 0 1 15 25 [.temps 10 15 25, .temps 700 15 25] (by
  intro e he
  simp only [List.mem_cons, List.not_mem_nil, or_false] at he
  rcases he with rfl | rfl
  · exact ⟨10, rfl⟩
  · exact ⟨700, rfl⟩)

example := C152_hot_partial settings sane (by norm_num [settings]) ⟨0, none⟩ 45 46 (by norm_num [settings]) (by norm_num)

example := C152_as_hot settings ⟨0, some false⟩ 50 (by decide)

example := C152_kept_on settings ⟨0, some true⟩ ⟨0, some false⟩ 15 20 rfl rfl

example := C152_offline settings 0 1 5300 (day.take 6) (4900, true) (by decide +kernel) (by norm_num [settings])

end Demo

end FanControl
end Ade
