import Verif.Props.Setup

/-!
# How much work a setup does

C74: during a setup at most `N_maxParallel` evaluations are outstanding at any time, the setup is complete as
soon as enough usable scores have been delivered, and the number of evaluations is bounded by the target size,
the number of unusable results, and the limit of parallel evaluations.
-/

set_option autoImplicit false

namespace Ade
namespace Setup

/-! ## Specification: counting the delivered results -/

/-- A result that makes a member: a score that is neither negative nor infinite. -/
def Usable : Individual.EvalResult → Bool
  | .done (some x) => !x.isInf && !x.lt .zero
  | _ => false

/-- The number of evaluations that have ended. -/
def delivered : List Event → ℕ
  | [] => 0
  | .finish _ _ :: es => delivered es + 1
  | _ :: es => delivered es

/-- The number of evaluations that have ended with a usable score. -/
def usable : List Event → ℕ
  | [] => 0
  | .finish _ r :: es => (if Usable r then 1 else 0) + usable es
  | _ :: es => usable es

theorem delivered_append (es : List Event) (e : Event) :
    delivered (es ++ [e]) = delivered es + delivered [e] := by
  induction es with
  | nil => simp [delivered]
  | cons a es ih => cases a <;> simp [delivered, ih]; omega

theorem usable_append (es : List Event) (e : Event) :
    usable (es ++ [e]) = usable es + usable [e] := by
  induction es with
  | nil => simp [usable]
  | cons a es ih => cases a <;> simp [usable, ih]; omega

theorem usable_le_delivered (es : List Event) : usable es ≤ delivered es := by
  induction es with
  | nil => simp [usable, delivered]
  | cons a es ih =>
    cases a with
    | finish id r => simp only [usable, delivered]; split <;> omega
    | _ => simpa [usable, delivered] using ih

/-! ## Invariant -/

/-- Where the setup is, in numbers. -/
structure Work (cfg : Cfg) (es : List Event) (s : St) : Prop where
  nodup : (s.flights.map Flight.id).Nodup
  ids : ∀ f ∈ s.flights, f.id < s.k
  count : s.k = delivered es + s.flights.length
  members : s.members.length = min cfg.Np (usable es)
  bound : s.k = 0 ∨ s.k + 1 + usable es ≤ cfg.Np + delivered es + cfg.maxParallel
  untracked : ∀ f ∈ s.flights, f.tracked = false → s.phase = .waitOne f.id
  few : s.flights.length ≤ cfg.maxParallel
  fewTracked : s.phase ≠ .waitFewer → s.phase ≠ .drain →
    (s.flights.filter (·.tracked)).length < cfg.maxParallel
  stopped : s.phase = .finished false → s.running = false

theorem work_start (cfg : Cfg) (hp : 0 < cfg.maxParallel) : Work cfg [] start := by
  constructor <;> simp [start, usable, delivered, hp]

theorem usable_iff (i : Individual) (r : Individual.EvalResult) :
    Usable r = true ↔ (i.finishEval 0 r).1.toBool = true ∧
      (i.finishEval 0 r).1.toFloat.isInf = false := by
  cases r with
  | failed => simp [Individual.finishEval, Individual.toBool, Individual.setSSE, Usable, PyFloat.isNaN,
      PyFloat.le, PyFloat.lt, PyFloat.eq, PyFloat.zero]
  | done x =>
    cases x with
    | none => simp [Individual.finishEval, Individual.toBool, Individual.setSSE, Usable,
        Individual.toFloat, Individual.SSE, PyFloat.isInf, PyFloat.lt, PyFloat.zero]
    | some x =>
      cases x with
      | nan => simp [Individual.finishEval, Individual.toBool, Individual.setSSE, Usable, PyFloat.isNaN,
          PyFloat.lt, Individual.toFloat, Individual.SSE, PyFloat.isInf]
      | ninf => simp [Individual.finishEval, Individual.toBool, Individual.setSSE, Usable,
          PyFloat.isNaN, PyFloat.le, PyFloat.lt, PyFloat.eq, PyFloat.zero, PyFloat.isInf]
      | pinf => simp [Individual.finishEval, Individual.toBool, Individual.setSSE, Usable,
          PyFloat.isNaN, PyFloat.le, PyFloat.lt, PyFloat.eq, PyFloat.zero, PyFloat.isInf,
          Individual.toFloat, Individual.SSE]
      | fin q =>
        by_cases hq : q < 0
        · simp [Individual.finishEval, Individual.toBool, Individual.setSSE, Usable, PyFloat.isNaN,
            PyFloat.le, PyFloat.lt, PyFloat.eq, PyFloat.zero, PyFloat.isInf, hq, hq.le, hq.ne']
        · simp only [not_lt] at hq
          simp [Individual.finishEval, Individual.toBool, Individual.setSSE, Usable, PyFloat.isNaN,
            PyFloat.le, PyFloat.lt, PyFloat.eq, PyFloat.zero, PyFloat.isInf, Individual.toFloat,
            Individual.SSE, not_lt.2 hq]
          rcases hq.lt_or_eq with h | h
          · exact Or.inl h
          · exact Or.inr h

/-- Taking the flight with a number that occurs once away shortens the list by one. -/
theorem filter_id_length (fs : List Flight) (hn : (fs.map Flight.id).Nodup) (f : Flight) (hf : f ∈ fs) :
    (fs.filter (fun g => g.id != f.id)).length + 1 = fs.length := by
  induction fs with
  | nil => cases hf
  | cons g fs ih =>
    simp only [List.map_cons, List.nodup_cons, List.mem_map, not_exists, not_and] at hn
    rcases List.mem_cons.1 hf with rfl | hf
    · have : fs.filter (fun g => g.id != f.id) = fs := by
        rw [List.filter_eq_self]
        intro a ha
        simpa using hn.1 a ha
      simp [this]
    · have hne : g.id ≠ f.id := fun h => hn.1 f hf h.symm
      rw [List.filter_cons_of_pos (by simpa using hne), List.length_cons, List.length_cons, ih hn.2 hf]

theorem step_work {cfg : Cfg} (hp : 0 < cfg.maxParallel) (hb : cfg.blank = false) {es : List Event}
    {s s' : St} (e : Event) (hs : Work cfg es s) (hst : step cfg s e = some s') :
    Work cfg (es ++ [e]) s' := by
  have hud := usable_le_delivered es
  cases e with
  | resume =>
    have hd1 : delivered (es ++ [.resume]) = delivered es := by
      rw [delivered_append]; simp [delivered]
    have hu1 : usable (es ++ [.resume]) = usable es := by
      rw [usable_append]; simp [usable]
    simp only [step] at hst
    by_cases hr : ready cfg s = true
    · simp only [hr, Bool.not_true, Bool.false_eq_true, if_false] at hst
      have hunt : ∀ f ∈ s.flights, f.tracked = true := by
        intro f hf
        by_contra hc
        simp only [Bool.not_eq_true] at hc
        have := hs.untracked f hf hc
        simp only [ready, this, List.all_eq_true] at hr
        simpa using hr f hf
      have hall : s.flights.filter (·.tracked) = s.flights := List.filter_eq_self.2 hunt
      by_cases hd : s.phase = .drain
      · rw [if_pos hd] at hst
        injection hst with hst
        have hfl : s.flights = [] := by
          simpa [ready, hd, hall] using hr
        subst hst
        unfold done
        have := hs.bound
        have := hs.count
        cases s.running <;>
          exact ⟨hs.nodup, hs.ids, by simp only [Bool.false_eq_true, if_false, if_true]; rw [hd1]; exact hs.count,
            by simp only [Bool.false_eq_true, if_false, if_true]; rw [hu1]; exact hs.members,
            by simp only [Bool.false_eq_true, if_false, if_true]; rw [hd1, hu1]; exact hs.bound,
            by simp [hfl], by simp [hfl], by simp [hfl, hp], by simp⟩
      · rw [if_neg hd] at hst
        injection hst with hst
        subst hst
        have hlt : s.flights.length < cfg.maxParallel := by
          by_cases hw : s.phase = .waitFewer
          · simpa [ready, hw, hall] using hr
          · have := hs.fewTracked hw hd
            rwa [hall] at this
        unfold round
        by_cases hc : (s.running && needMore cfg s) = true
        · rw [if_pos hc]
          simp only [Bool.and_eq_true, needMore, decide_eq_true_eq] at hc
          generalize getIndividual cfg cfg.maxTries s.src = g
          simp only [hb, Bool.false_eq_true, if_false]
          have hm := hs.members
          have hcnt := hs.count
          refine ⟨?_, ?_, ?_, ?_, ?_, ?_, ?_, ?_, by simp only; split <;> simp⟩
          · simp only [List.map_append, List.map_cons, List.map_nil, List.nodup_append, List.nodup_cons,
              List.not_mem_nil, not_false_eq_true, List.nodup_nil, and_self, List.mem_map,
              List.mem_singleton, true_and]
            refine ⟨hs.nodup, ?_⟩
            rintro a ⟨f, hf, rfl⟩ b rfl
            exact (hs.ids f hf).ne
          · intro f hf
            simp only [List.mem_append, List.mem_singleton] at hf
            rcases hf with hf | rfl
            · have := hs.ids f hf; simp only; omega
            · simp
          · simp only [List.length_append, List.length_singleton, hd1]; omega
          · rw [hu1]; exact hm
          · right
            simp only [hd1, hu1]
            omega
          · intro f hf ht
            simp only [List.mem_append, List.mem_singleton] at hf
            rcases hf with hf | rfl
            · rw [hunt f hf] at ht; cases ht
            · simp only [decide_eq_false_iff_not] at ht
              simp only [if_neg ht]
          · simp only [List.length_append, List.length_singleton]; omega
          · intro h1 h2
            by_cases ht : s.k + 1 < cfg.Np
            · simp [ht] at h1
            · simp only [List.filter_append, List.length_append, hall]
              simp only [ht, decide_false]
              simpa using hlt
        · rw [if_neg hc]
          exact ⟨hs.nodup, hs.ids, by rw [hd1]; exact hs.count, by rw [hu1]; exact hs.members,
            by rw [hd1, hu1]; exact hs.bound,
            (fun f hf ht => by rw [hunt f hf] at ht; cases ht), hs.few, by simp, by simp⟩
    · simp only [Bool.not_eq_true] at hr
      simp [hr] at hst
  | finish id r =>
    have hd1 : delivered (es ++ [.finish id r]) = delivered es + 1 := by
      rw [delivered_append]; simp [delivered]
    have hu1 : usable (es ++ [.finish id r]) = usable es + (if Usable r then 1 else 0) := by
      rw [usable_append]; simp [usable]
    simp only [step] at hst
    cases hf : s.flights.find? (fun f => f.id == id) with
    | none => rw [hf] at hst; simp at hst
    | some f =>
      rw [hf] at hst
      simp only [Option.some.injEq] at hst
      subst hst
      have hmem := List.mem_of_find?_eq_some hf
      have hid : f.id = id := by simpa using List.find?_some hf
      have hlen := filter_id_length s.flights hs.nodup f hmem
      rw [hid] at hlen
      have hsub : ∀ g, g ∈ s.flights.filter (fun f => f.id != id) → g ∈ s.flights :=
        fun g hg => (List.mem_filter.1 hg).1
      have hnd : ((s.flights.filter (fun f => f.id != id)).map Flight.id).Nodup :=
        hs.nodup.sublist ((List.filter_sublist).map _)
      have hft : ((s.flights.filter (fun f => f.id != id)).filter (·.tracked)).length ≤
          (s.flights.filter (·.tracked)).length :=
        ((List.filter_sublist (p := fun f : Flight => f.id != id)).filter _).length_le
      have hu := usable_iff f.ind r
      have hm := hs.members
      have hcnt := hs.count
      have hbd := hs.bound
      have hfew := hs.few
      have hkpos : s.k ≠ 0 := by
        have := hs.ids f hmem; omega
      have key : ∀ s'' : St, s''.flights = s.flights.filter (fun f => f.id != id) → s''.k = s.k →
          s''.phase = s.phase → (s.running = false → s''.running = false) →
          s''.members.length = min cfg.Np (usable es + (if Usable r then 1 else 0)) →
          Work cfg (es ++ [.finish id r]) s'' := by
        intro s'' h1 h2 h3 h5 h4
        refine ⟨by rw [h1]; exact hnd, by rw [h1, h2]; exact fun g hg => hs.ids g (hsub g hg), ?_, ?_,
          ?_, by rw [h1, h3]; exact fun g hg ht => hs.untracked g (hsub g hg) ht, ?_, ?_,
          by rw [h3]; exact fun h => h5 (hs.stopped h)⟩
        · rw [h1, h2, hd1]; omega
        · rw [h4, hu1]
        · right
          rw [h2, hd1, hu1]
          split <;> omega
        · rw [h1]; omega
        · rw [h1, h3]
          intro a b
          exact lt_of_le_of_lt hft (hs.fewTracked a b)
      unfold evaluated
      cases hbb : (f.ind.finishEval 0 r).1.toBool with
      | false =>
        have hnu : Usable r = false := by
          rw [← Bool.not_eq_true, hu, hbb]; simp
        simp only [Bool.not_false, if_true]
        exact key _ rfl rfl rfl (by simp) (by simpa [hnu] using hm)
      | true =>
        simp only [Bool.not_true, Bool.false_eq_true, if_false]
        by_cases hinf : (f.ind.finishEval 0 r).1.toFloat.isInf = true
        · have hnu : Usable r = false := by
            rw [← Bool.not_eq_true, hu, hinf]; simp
          simp only [hinf, Bool.not_true, Bool.false_and, Bool.false_eq_true, if_false]
          exact key _ rfl rfl rfl (by simp) (by simpa [hnu] using hm)
        · simp only [Bool.not_eq_true] at hinf
          have hyu : Usable r = true := hu.2 ⟨hbb, hinf⟩
          simp only [hinf, Bool.not_false, Bool.true_and, needMore, decide_eq_true_eq]
          by_cases hmore : s.members.length < cfg.Np
          · rw [if_pos hmore]
            exact key _ rfl rfl rfl (by simp) (by simp only [List.length_append, List.length_singleton, hyu, if_true]; omega)
          · rw [if_neg hmore]
            exact key _ rfl rfl rfl (by simp) (by simp only [hyu, if_true]; omega)
  | abort =>
    have hd1 : delivered (es ++ [.abort]) = delivered es := by
      rw [delivered_append]; simp [delivered]
    have hu1 : usable (es ++ [.abort]) = usable es := by
      rw [usable_append]; simp [usable]
    simp only [step] at hst
    have : s' = { s with running := false } := by
      cases hph : s.phase <;> rw [hph] at hst <;> simp at hst <;> exact hst.symm
    subst this
    exact ⟨hs.nodup, hs.ids, by rw [hd1]; exact hs.count, by rw [hu1]; exact hs.members,
      by rw [hd1, hu1]; exact hs.bound, hs.untracked, hs.few, hs.fewTracked, by simp⟩

theorem run_work {cfg : Cfg} (hp : 0 < cfg.maxParallel) (hb : cfg.blank = false) {es₀ : List Event}
    {s s' : St} (es : List Event) (hs : Work cfg es₀ s) (hr : run cfg s es = some s') :
    Work cfg (es₀ ++ es) s' := by
  induction es generalizing s es₀ with
  | nil => simp only [run, Option.some.injEq] at hr; subst hr; simpa using hs
  | cons e es ih =>
    simp only [run] at hr
    cases hst : step cfg s e with
    | none => rw [hst] at hr; simp at hr
    | some s₁ =>
      rw [hst] at hr
      have := ih (step_work hp hb e hs hst) hr
      simpa using this

/-! ## C74 -/

/-- C74: at no time are more than `N_maxParallel` evaluations of a setup outstanding. -/
theorem C74_parallel_limit (cfg : Cfg) (hp : 0 < cfg.maxParallel) (hb : cfg.blank = false)
    (es : List Event) (s : St) (hr : run cfg start es = some s) :
    s.flights.length ≤ cfg.maxParallel :=
  (run_work hp hb es (work_start cfg hp) hr).few

/-- C74: the number of evaluations started is the number ended plus the number outstanding, and it is at most
the target size, plus the number of unusable results, plus the limit of parallel evaluations less one. -/
theorem C74_work_bound (cfg : Cfg) (hN : 0 < cfg.Np) (hp : 0 < cfg.maxParallel) (hb : cfg.blank = false)
    (es : List Event) (s : St) (hr : run cfg start es = some s) :
    s.k = delivered es + s.flights.length ∧
      s.k ≤ cfg.Np + (delivered es - usable es) + (cfg.maxParallel - 1) := by
  have h := run_work hp hb es (work_start cfg hp) hr
  have h1 := h.count
  have h2 := h.bound
  have h3 := usable_le_delivered es
  simp only [List.nil_append] at h1 h2
  refine ⟨h1, ?_⟩
  omega

/-- C74: the number of members is at all times the number of usable scores delivered, up to the target size. -/
theorem C74_members_count (cfg : Cfg) (hp : 0 < cfg.maxParallel) (hb : cfg.blank = false)
    (es : List Event) (s : St) (hr : run cfg start es = some s) :
    s.members.length = min cfg.Np (usable es) := by
  have h := run_work hp hb es (work_start cfg hp) hr
  simpa using h.members

/-- C74: once enough usable scores have been delivered, the setup completes with success when the evaluations
still outstanding have ended: at most two resumptions are then needed. -/
theorem C74_completes (cfg : Cfg) (hp : 0 < cfg.maxParallel) (hb : cfg.blank = false) (es : List Event)
    (s : St) (hr : run cfg start es = some s) (hrun : s.running = true) (hu : cfg.Np ≤ usable es)
    (hf : s.flights = []) (hd : ∀ b, s.phase ≠ .finished b) :
    ∃ n ≤ 2, ∃ s', run cfg s (List.replicate n .resume) = some s' ∧ s'.phase = .finished true ∧
      s'.members = s.members := by
  have hm := C74_members_count cfg hp hb es s hr
  have hmore : ¬ s.members.length < cfg.Np := by omega
  have hready : ready cfg s = true := by
    unfold ready
    cases hph : s.phase with
    | finished b => exact absurd hph (hd b)
    | _ => simp [hf, hp]
  have hround : round cfg s = { s with phase := .drain } := by
    unfold round
    simp [needMore, hmore]
  by_cases hdr : s.phase = .drain
  · refine ⟨1, by omega, done s, ?_, ?_, ?_⟩
    · simp only [List.replicate, run, step, hready, Bool.not_true, Bool.false_eq_true, if_false, hdr,
        if_true]
    · simp [done, hrun]
    · simp [done, hrun]
  · refine ⟨2, le_refl _, { s with phase := .finished true }, ?_, rfl, rfl⟩
    simp only [List.replicate, run, step, hready, Bool.not_true, Bool.false_eq_true, if_false, hdr, hround]
    simp [ready, hf, done, hrun]

/-- C74, the price of needing usable scores: as long as fewer than the target size have been delivered and
nothing is aborted, a setup does not end. With an evaluation function that only gives infinite scores it
never does. -/
theorem C74_waits_for_scores (cfg : Cfg) (h : Proper cfg) (hp : 0 < cfg.maxParallel)
    (hb : cfg.blank = false) (es : List Event) (s : St) (hr : run cfg start es = some s)
    (hrun : s.running = true) (hu : usable es < cfg.Np) : ∀ b, s.phase ≠ .finished b := by
  intro b hph
  have hm := C74_members_count cfg hp hb es s hr
  have hi := run_inv h es (inv_start cfg) hr
  cases b with
  | true =>
    have := ((hi.done true hph).2 rfl).2
    omega
  | false => 
    have := (run_work hp hb es (work_start cfg hp) hr).stopped hph
    rw [hrun] at this; cases this

/-- A setup of three members with two parallel evaluations, in which one score is infinite: four evaluations
are made, and the number of members follows the usable scores. -/
def demoEvents : List Event :=
  [.resume, .resume, .finish 1 (.done (some (.fin 4))), .resume, .finish 0 (.done (some .pinf)),
    .finish 2 (.done (some (.fin 2))), .resume, .finish 3 (.done (some (.fin 3))), .resume, .resume]

example : ((run demo start demoEvents).map fun s => (s.phase, s.k, s.members.length)) =
    some (.finished true, 4, 3) ∧ usable demoEvents = 3 ∧ delivered demoEvents = 4 := by decide +kernel

/-- With two evaluations outstanding, one short of the target size, the setup waits. -/
example : ((run demo start (demoEvents.take 4)).map fun s => (s.phase, s.k, s.flights.length, s.running)) =
    some (.waitOne 2, 3, 2, true) ∧ usable (demoEvents.take 4) = 1 ∧ demo.maxParallel = 2 := by
  decide +kernel

example := C74_parallel_limit demo (by decide) rfl demoOk demoEnd demoEnd_run

example := C74_work_bound demo (by decide) (by decide) rfl demoOk demoEnd demoEnd_run

example := C74_members_count demo (by decide) rfl demoOk demoEnd demoEnd_run

/-- Enough scores, nothing outstanding, but the setup has not noticed yet. -/
def demoAlmost : St := (run demo start (demoOk.take 8)).get (by decide +kernel)

example := C74_completes demo (by decide) rfl (demoOk.take 8) demoAlmost (eq_get _) (by decide +kernel)
  (by decide +kernel) (List.eq_nil_of_length_eq_zero (by decide +kernel)) (fun b => by revert b; decide +kernel)

end Setup
end Ade
