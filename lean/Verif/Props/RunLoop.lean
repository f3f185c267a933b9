import Verif.Model.RunLoop
import Verif.Props.FManager

/-!
# Properties C32, C33, C34: the generation loop
-/

set_option autoImplicit false

namespace Ade
namespace RunLoop

variable {K : Type} [Field K] [LinearOrder K]

/-! ## Specification -/

/-- A completed generation `k`: announced, then one challenge for each population index in turn, then
the range scaled, then the user callback called with `k`. -/
def Full (Np k : ℕ) (l : List Event) : Prop :=
  ∃ (ps : List (ℕ × ℕ)) (s : Event), ps.map Prod.fst = List.range Np ∧ (s = .up ∨ s = .down) ∧
    l = .generation k :: ps.map (fun p => .challenge k p.1 p.2) ++ [s, .callback k]

/-- A generation `k` in which the run ends: announced, then challenges for the first few indices (for
all of them unless the run was aborted), and no callback. -/
def Broken (Np k : ℕ) (out : Outcome) (l : List Event) : Prop :=
  ∃ (ps : List (ℕ × ℕ)) (j : ℕ) (rest : List Event), j ≤ Np ∧ ps.map Prod.fst = List.range j ∧
    l = .generation k :: ps.map (fun p => .challenge k p.1 p.2) ++ rest ∧
    ((out = .aborted k ∧ (rest = [] ∨ rest = [.shutdown])) ∨
      (out = .gaveUp k ∧ j = Np ∧ rest = [.down]) ∨
      (out = .typeError k ∧ j = Np ∧ rest = []))

/-- Nothing interferes with the generation: no shutdown, a base is found for every target, and the
challenges end with a result. -/
def Undisturbed (cfg : Cfg) (e : Env) : Prop :=
  e.running0 = true ∧ (∀ kt < cfg.Np, (base cfg e kt).isSome ∧ e.running1 kt = true) ∧
    e.result = true ∧ e.running2 = true

/-- Scaling request made after generation `i`. -/
def request (env : ℕ → Env) (i : ℕ) : FManager.Op := if (env i).keep then .up else .down

/-- Whether the range is reported limited after the requests of generations `0..i`. -/
def limitedAfter (c : FManager.Consts K) (env : ℕ → Env) (F : FManager.FVal K) (adaptive : Bool)
    (i : ℕ) : Bool :=
  (FManager.run c (FManager.init c F adaptive) ((List.range (i + 1)).map (request env))).limited

/-- The number of generations among the first `k` in which the range was limited, since the last one
in which the status quo was kept. -/
def stalled (c : FManager.Consts K) (env : ℕ → Env) (F : FManager.FVal K) (adaptive : Bool)
    (k : ℕ) : ℕ :=
  (((List.range k).reverse.takeWhile (fun i => !(env i).keep)).filter
    (limitedAfter c env F adaptive)).length

/-! ## Lemmas -/

theorem issue_shape (cfg : Cfg) (e : Env) (kg : ℕ) (m i : ℕ) :
    ∃ (ps : List (ℕ × ℕ)) (j : ℕ) (rest : List Event), j ≤ m ∧
      ps.map Prod.fst = List.range' i j ∧
      (issue cfg e kg (List.range' i m)).1 = ps.map (fun p => .challenge kg p.1 p.2) ++ rest ∧
      (if (issue cfg e kg (List.range' i m)).2 then j = m ∧ rest = [] else
        (rest = [] ∨ rest = [.shutdown])) := by
  induction m generalizing i with
  | zero => exact ⟨[], 0, [], le_rfl, rfl, rfl, by simp [issue]⟩
  | succ m ih =>
    rw [List.range'_succ]
    simp only [issue]
    cases hb : base cfg e i with
    | none => exact ⟨[], 0, [.shutdown], by omega, rfl, rfl, by simp⟩
    | some kb =>
      cases hr : e.running1 i with
      | false => exact ⟨[(i, kb)], 1, [], by omega, rfl, rfl, by simp⟩
      | true =>
        obtain ⟨ps, j, rest, h1, h2, h3, h4⟩ := ih (i + 1)
        refine ⟨(i, kb) :: ps, j + 1, rest, by omega, ?_, ?_, ?_⟩
        · simp [h2, List.range'_succ]
        · simp [h3]
        · simp only [Bool.not_true, Bool.false_eq_true, if_false]
          split at h4
          · rename_i h; rw [if_pos h]; exact ⟨by omega, h4.2⟩
          · rename_i h; rw [if_neg h]; exact h4

theorem issue_complete (cfg : Cfg) (e : Env) (kg : ℕ) (l : List ℕ) :
    (issue cfg e kg l).2 = true ↔ ∀ kt ∈ l, (base cfg e kt).isSome ∧ e.running1 kt = true := by
  induction l with
  | nil => simp [issue]
  | cons i l ih =>
    simp only [issue]
    cases hb : base cfg e i with
    | none => simp [hb]
    | some kb =>
      cases hr : e.running1 i with
      | false => simp [hr]
      | true => simp [hb, hr, ih]

theorem evolve_iff (cfg : Cfg) (e : Env) (kg : ℕ) :
    (evolve cfg e kg).2 = true ↔ Undisturbed cfg e := by
  have h := issue_complete cfg e kg (List.range cfg.Np)
  simp only [List.mem_range] at h
  unfold evolve Undisturbed
  rw [← h]
  generalize issue cfg e kg (List.range cfg.Np) = r
  obtain ⟨ev, b⟩ := r
  cases e.running0 <;> cases b <;> cases e.result <;> cases e.running2 <;> simp

theorem evolve_shape (cfg : Cfg) (e : Env) (kg : ℕ) :
    ∃ (ps : List (ℕ × ℕ)) (j : ℕ) (rest : List Event), j ≤ cfg.Np ∧
      ps.map Prod.fst = List.range j ∧
      (evolve cfg e kg).1 = .generation kg :: ps.map (fun p => .challenge kg p.1 p.2) ++ rest ∧
      (if (evolve cfg e kg).2 then j = cfg.Np ∧ rest = [] else (rest = [] ∨ rest = [.shutdown])) := by
  obtain ⟨ps, j, rest, h1, h2, h3, h4⟩ := issue_shape cfg e kg cfg.Np 0
  rw [← List.range_eq_range'] at h2 h3 h4
  unfold evolve
  cases e.running0 with
  | false => exact ⟨[], 0, [], by omega, rfl, rfl, by simp⟩
  | true =>
    simp only [Bool.not_true, Bool.false_eq_true, if_false]
    cases hc : (issue cfg e kg (List.range cfg.Np)).2 with
    | false =>
      rw [hc] at h4
      exact ⟨ps, j, rest, h1, h2, by simp [h3], by simpa using h4⟩
    | true =>
      rw [hc] at h4
      simp only [if_true] at h4
      obtain ⟨rfl, rfl⟩ := h4
      cases e.result with
      | false => exact ⟨ps, _, [.shutdown], h1, h2, by simp [h3], by simp⟩
      | true => exact ⟨ps, _, [], h1, h2, by simp [h3], by simp⟩

theorem evolve_full {cfg : Cfg} {e : Env} {kg : ℕ} (h : (evolve cfg e kg).2 = true) :
    ∃ ps : List (ℕ × ℕ), ps.map Prod.fst = List.range cfg.Np ∧
      (evolve cfg e kg).1 = .generation kg :: ps.map (fun p => .challenge kg p.1 p.2) := by
  obtain ⟨ps, j, rest, -, h2, h3, h4⟩ := evolve_shape cfg e kg
  rw [if_pos h] at h4
  obtain ⟨rfl, rfl⟩ := h4
  exact ⟨ps, h2, by simpa using h3⟩

theorem loop_shape (cfg : Cfg) (c : FManager.Consts K) (env : ℕ → Env) (n kg : ℕ)
    (F : FManager.FM K) (dwell : ℕ) :
    ∃ (blocks : List (List Event)) (tail : List Event),
      (loop cfg c env n kg F dwell).1 = blocks.flatten ++ tail ∧
      (∀ i (h : i < blocks.length), Full cfg.Np (kg + i) blocks[i]) ∧
      (((loop cfg c env n kg F dwell).2 = .maximum ∧ blocks.length = n ∧ tail = []) ∨
        (blocks.length < n ∧
          Broken cfg.Np (kg + blocks.length) (loop cfg c env n kg F dwell).2 tail)) := by
  induction n generalizing kg F dwell with
  | zero => exact ⟨[], [], rfl, by simp, .inl ⟨rfl, rfl, rfl⟩⟩
  | succ n ih =>
    -- a further complete generation in front
    have cont : ∀ (s : Event) (F' : FManager.FM K) (d' : ℕ), (s = .up ∨ s = .down) →
        (evolve cfg (env kg) kg).2 = true →
        ∃ (blocks : List (List Event)) (tail : List Event),
          (evolve cfg (env kg) kg).1 ++ s :: .callback kg :: (loop cfg c env n (kg + 1) F' d').1 =
            blocks.flatten ++ tail ∧
          (∀ i (h : i < blocks.length), Full cfg.Np (kg + i) blocks[i]) ∧
          (((loop cfg c env n (kg + 1) F' d').2 = .maximum ∧ blocks.length = n + 1 ∧ tail = []) ∨
            (blocks.length < n + 1 ∧
              Broken cfg.Np (kg + blocks.length) (loop cfg c env n (kg + 1) F' d').2 tail)) := by
      intro s F' d' hs he
      obtain ⟨ps, h2, h3⟩ := evolve_full he
      obtain ⟨bl, tl, i1, i2, i3⟩ := ih (kg + 1) F' d'
      refine ⟨((evolve cfg (env kg) kg).1 ++ [s, .callback kg]) :: bl, tl, by simp [i1], ?_, ?_⟩
      · intro i hi
        cases i with
        | zero => exact ⟨ps, s, h2, hs, by simp [h3]⟩
        | succ i =>
          have := i2 i (by simpa using hi)
          simpa [Nat.add_assoc, Nat.add_comm 1 i] using this
      · rcases i3 with ⟨a, b, d⟩ | ⟨a, b⟩
        · exact .inl ⟨a, by simp [b], d⟩
        · refine .inr ⟨by simpa using a, ?_⟩
          simpa [Nat.add_assoc, Nat.add_comm 1 bl.length] using b
    simp only [loop]
    cases he : (evolve cfg (env kg) kg).2 with
    | false =>
      obtain ⟨ps, j, rest, h1, h2, h3, h4⟩ := evolve_shape cfg (env kg) kg
      rw [he] at h4
      exact ⟨[], (evolve cfg (env kg) kg).1, by simp, by simp,
        .inr ⟨by simp, ps, j, rest, h1, h2, h3, .inl ⟨by simp, by simpa using h4⟩⟩⟩
    | true =>
      simp only [Bool.not_true, Bool.false_eq_true, if_false]
      obtain ⟨ps, h2, h3⟩ := evolve_full he
      cases hg : goalSet cfg with
      | true =>
        exact ⟨[], (evolve cfg (env kg) kg).1, by simp, by simp,
          .inr ⟨by simp, ps, _, [], le_rfl, h2, by simp [h3], .inr (.inr ⟨by simp, rfl, rfl⟩)⟩⟩
      | false =>
        simp only [Bool.false_eq_true, if_false]
        cases hk : (env kg).keep with
        | true => exact cont .up _ _ (.inl rfl) he
        | false =>
          simp only [Bool.false_eq_true, if_false]
          by_cases hl : (!cfg.bitterEnd && (FManager.down c F).limited) = true
          · rw [if_pos hl]
            by_cases hd : dwell + 1 > cfg.dwellByGrave
            · rw [if_pos hd]
              exact ⟨[], (evolve cfg (env kg) kg).1 ++ [.down], by simp, by simp,
                .inr ⟨by simp, ps, _, [.down], le_rfl, h2, by simp [h3],
                  .inr (.inl ⟨by simp, rfl, rfl⟩)⟩⟩
            · rw [if_neg hd]
              exact cont .down _ _ (.inr rfl) he
          · rw [if_neg hl]
            exact cont .down _ _ (.inr rfl) he

/-! ## C32 -/

/-- C32: a run is a sequence of at most `maxiter` completed generations, numbered from 0, possibly
followed by one in which it ends early; it ends with a report of the best individual unless it was
aborted, shut down by the last user callback, or failed. -/
theorem C32_run_shape (cfg : Cfg) (c : FManager.Consts K) (env : ℕ → Env) (F : FManager.FVal K)
    (adaptive : Bool) :
    ∃ (blocks : List (List Event)) (tail ending : List Event),
      (run cfg c env F adaptive).1 = blocks.flatten ++ tail ++ ending ∧
      (∀ i (h : i < blocks.length), Full cfg.Np i blocks[i]) ∧
      (((run cfg c env F adaptive).2 = .maximum ∧ blocks.length = cfg.maxiter ∧ tail = [] ∧
          (ending = [.report, .shutdown] ∨
            ending = [] ∧ 0 < cfg.maxiter ∧ (env (cfg.maxiter - 1)).running3 = false)) ∨
        (blocks.length < cfg.maxiter ∧
          Broken cfg.Np blocks.length (run cfg c env F adaptive).2 tail ∧
          ending = if (run cfg c env F adaptive).2 = .gaveUp blocks.length
            then [.report, .shutdown] else [])) := by
  obtain ⟨bl, tl, h1, h2, h3⟩ :=
    loop_shape cfg c env cfg.maxiter 0 (FManager.init c F adaptive) 0
  simp only [Nat.zero_add] at h2 h3
  unfold run
  simp only
  generalize loop cfg c env cfg.maxiter 0 (FManager.init c F adaptive) 0 = s at *
  obtain ⟨ev, out⟩ := s
  simp only at h1 h3 ⊢
  rcases h3 with ⟨h3, h4, h5⟩ | ⟨h3, h4⟩
  · subst h3
    simp only
    by_cases hr : cfg.maxiter = 0 ∨ (env (cfg.maxiter - 1)).running3 = true
    · rw [if_pos hr]
      exact ⟨bl, tl, _, by rw [h1], h2, .inl ⟨by trivial, h4, h5, .inl rfl⟩⟩
    · rw [if_neg hr]
      push Not at hr
      exact ⟨bl, tl, [], by simp [h1], h2,
        .inl ⟨by trivial, h4, h5, .inr ⟨rfl, by omega, by simpa using hr.2⟩⟩⟩
  · have h4' := h4
    obtain ⟨ps, j, rest, -, -, -, h | h | h⟩ := h4' <;> obtain ⟨rfl, -⟩ := h
    · exact ⟨bl, tl, [], by simp [h1], h2, .inr ⟨h3, h4, by simp⟩⟩
    · exact ⟨bl, tl, [.report, .shutdown], by rw [h1], h2, .inr ⟨h3, h4, by simp⟩⟩
    · exact ⟨bl, tl, [], by simp [h1], h2, .inr ⟨h3, h4, by simp⟩⟩

/-- C32: the targets challenged in generation `k`, in order. -/
def targets (k : ℕ) (l : List Event) : List ℕ :=
  l.filterMap fun e => match e with
    | .challenge k' kt _ => if k' = k then some kt else none
    | _ => none

/-- The numbers with which the user callback is called, in order. -/
def callbacks (l : List Event) : List ℕ :=
  l.filterMap fun e => match e with
    | .callback k => some k
    | _ => none

theorem callbacks_append (l₁ l₂ : List Event) :
    callbacks (l₁ ++ l₂) = callbacks l₁ ++ callbacks l₂ := List.filterMap_append

theorem targets_append (k : ℕ) (l₁ l₂ : List Event) :
    targets k (l₁ ++ l₂) = targets k l₁ ++ targets k l₂ := List.filterMap_append

theorem callbacks_challenges (k : ℕ) (ps : List (ℕ × ℕ)) :
    callbacks (ps.map (fun p => Event.challenge k p.1 p.2)) = [] := by
  induction ps with
  | nil => rfl
  | cons p ps ih => simp [callbacks]

theorem targets_challenges (k k' : ℕ) (ps : List (ℕ × ℕ)) :
    targets k (ps.map (fun p => Event.challenge k' p.1 p.2)) =
      if k' = k then ps.map Prod.fst else [] := by
  induction ps with
  | nil => simp [targets]
  | cons p ps ih =>
    by_cases h : k' = k
    · simp only [if_pos h] at ih ⊢
      simp only [targets, List.map_cons, List.filterMap_cons, if_pos h]
      exact congrArg _ ih
    · simp only [if_neg h] at ih ⊢
      simp only [targets, List.map_cons, List.filterMap_cons, if_neg h]
      exact ih

theorem full_callbacks {Np k : ℕ} {l : List Event} (h : Full Np k l) : callbacks l = [k] := by
  obtain ⟨ps, s, -, hs, rfl⟩ := h
  have : ∀ l, callbacks (.generation k :: l) = callbacks l := fun l => rfl
  rw [List.cons_append, this, callbacks_append, callbacks_challenges]
  rcases hs with rfl | rfl <;> rfl

theorem full_targets {Np k : ℕ} {l : List Event} (h : Full Np k l) (i : ℕ) :
    targets i l = if k = i then List.range Np else [] := by
  obtain ⟨ps, s, h1, hs, rfl⟩ := h
  have : ∀ l, targets i (.generation k :: l) = targets i l := fun l => rfl
  rw [List.cons_append, this, targets_append, targets_challenges, h1]
  rcases hs with rfl | rfl <;> simp [targets]

theorem flatten_callbacks {Np : ℕ} (bl : List (List Event)) (a : ℕ)
    (h : ∀ i (h : i < bl.length), Full Np (a + i) bl[i]) :
    callbacks bl.flatten = List.range' a bl.length := by
  induction bl generalizing a with
  | nil => rfl
  | cons b bl ih =>
    have h0 := full_callbacks (h 0 (by simp))
    simp only [List.getElem_cons_zero, Nat.add_zero] at h0
    have := ih (a + 1) (fun i hi => by
      have := h (i + 1) (by simpa using hi)
      simpa [Nat.add_assoc, Nat.add_comm 1 i] using this)
    rw [List.flatten_cons, callbacks_append, h0, this]
    rfl

theorem flatten_targets {Np : ℕ} (bl : List (List Event)) (a k : ℕ)
    (h : ∀ i (h : i < bl.length), Full Np (a + i) bl[i]) :
    targets k bl.flatten = if a ≤ k ∧ k < a + bl.length then List.range Np else [] := by
  induction bl generalizing a with
  | nil => rw [if_neg (by simp)]; rfl
  | cons b bl ih =>
    have h0 := full_targets (h 0 (by simp)) k
    simp only [List.getElem_cons_zero, Nat.add_zero] at h0
    have := ih (a + 1) (fun i hi => by
      have := h (i + 1) (by simpa using hi)
      simpa [Nat.add_assoc, Nat.add_comm 1 i] using this)
    rw [List.flatten_cons, targets_append, h0, this]
    simp only [List.length_cons]
    by_cases h1 : a = k
    · rw [if_pos h1, if_neg (by omega), if_pos (by omega), List.append_nil]
    · rw [if_neg h1, List.nil_append]
      by_cases h2 : a + 1 ≤ k ∧ k < a + 1 + bl.length
      · rw [if_pos h2, if_pos (by omega)]
      · rw [if_neg h2, if_neg (by omega)]

/-- C32: the user callback is called with 0, 1, 2, … up to some `m ≤ maxiter`; in each of those
generations every population index is challenged exactly once; `m` is `maxiter` exactly if the run
ended by reaching it, and otherwise the run ended during generation `m`. -/
theorem C32_generations (cfg : Cfg) (c : FManager.Consts K) (env : ℕ → Env) (F : FManager.FVal K)
    (adaptive : Bool) :
    ∃ m ≤ cfg.maxiter, callbacks (run cfg c env F adaptive).1 = List.range m ∧
      (∀ k < m, targets k (run cfg c env F adaptive).1 = List.range cfg.Np) ∧
      (∀ k > m, targets k (run cfg c env F adaptive).1 = []) ∧
      (∃ j ≤ cfg.Np, targets m (run cfg c env F adaptive).1 = List.range j) ∧
      ((run cfg c env F adaptive).2 = .maximum ↔ m = cfg.maxiter) ∧
      (m < cfg.maxiter → (run cfg c env F adaptive).2 ∈
        [Outcome.aborted m, Outcome.gaveUp m, Outcome.typeError m]) := by
  obtain ⟨bl, tl, en, h1, h2, h3⟩ := C32_run_shape cfg c env F adaptive
  have h2' : ∀ i (h : i < bl.length), Full cfg.Np (0 + i) bl[i] := by simpa using h2
  have hc := flatten_callbacks bl 0 h2'
  have ht := fun k => flatten_targets bl 0 k h2'
  simp only [Nat.zero_le, true_and, Nat.zero_add] at ht
  rw [← List.range_eq_range'] at hc
  have hen : callbacks en = [] ∧ ∀ k, targets k en = [] := by
    have : en = [] ∨ en = [.report, .shutdown] := by
      rcases h3 with ⟨_, _, _, h | h⟩ | ⟨_, _, h⟩
      · exact .inr h
      · exact .inl h.1
      · split at h
        · exact .inr h
        · exact .inl h
    rcases this with rfl | rfl
    · exact ⟨rfl, fun _ => rfl⟩
    · exact ⟨rfl, fun _ => rfl⟩
  have htl : callbacks tl = [] ∧ (∀ k ≠ bl.length, targets k tl = []) ∧
      ∃ j ≤ cfg.Np, targets bl.length tl = List.range j := by
    rcases h3 with ⟨_, _, h, _⟩ | ⟨_, h, _⟩
    · subst h; exact ⟨rfl, fun _ _ => rfl, 0, by omega, rfl⟩
    · obtain ⟨ps, j, rest, hj, hps, rfl, hr⟩ := h
      have hrest : callbacks rest = [] ∧ ∀ k, targets k rest = [] := by
        rcases hr with ⟨_, rfl | rfl⟩ | ⟨_, _, rfl⟩ | ⟨_, _, rfl⟩ <;> exact ⟨rfl, fun _ => rfl⟩
      have e1 : ∀ k l, callbacks (.generation k :: l) = callbacks l := fun k l => rfl
      have e2 : ∀ i k l, targets i (.generation k :: l) = targets i l := fun i k l => rfl
      refine ⟨?_, ?_, j, hj, ?_⟩
      · rw [List.cons_append, e1, callbacks_append, callbacks_challenges, hrest.1]; rfl
      · intro k hk
        rw [List.cons_append, e2, targets_append, targets_challenges, hrest.2, if_neg (Ne.symm hk)]; rfl
      · rw [List.cons_append, e2, targets_append, targets_challenges, hrest.2, if_pos rfl, hps,
          List.append_nil]
  have hle : bl.length ≤ cfg.maxiter := by
    rcases h3 with ⟨_, h, _⟩ | ⟨h, _⟩ <;> omega
  refine ⟨bl.length, hle, ?_, ?_, ?_, ?_, ?_, ?_⟩
  · rw [h1, callbacks_append, callbacks_append, hc, htl.1, hen.1]; simp
  · intro k hk
    rw [h1, targets_append, targets_append, ht, if_pos hk, htl.2.1 k (by omega), hen.2]; simp
  · intro k hk
    rw [h1, targets_append, targets_append, ht, if_neg (by omega), htl.2.1 k (by omega), hen.2]; simp
  · obtain ⟨j, hj, h⟩ := htl.2.2
    exact ⟨j, hj, by rw [h1, targets_append, targets_append, ht, if_neg (by omega), h, hen.2]; simp⟩
  · rcases h3 with ⟨h, h', _⟩ | ⟨h, h', _⟩
    · simp [h, h']
    · obtain ⟨ps, j, rest, -, -, -, h'' | h'' | h''⟩ := h' <;> rw [h''.1] <;> simp <;> omega
  · intro hlt
    rcases h3 with ⟨h, h', _⟩ | ⟨h, h', _⟩
    · omega
    · obtain ⟨ps, j, rest, -, -, -, h'' | h'' | h''⟩ := h' <;> rw [h''.1] <;> simp

/-! ## C33 -/

section stalled
variable (c : FManager.Consts K) (env : ℕ → Env) (F : FManager.FVal K) (adaptive : Bool)

theorem stalled_keep {k : ℕ} (h : (env k).keep = true) : stalled c env F adaptive (k + 1) = 0 := by
  simp [stalled, List.range_succ, h]

theorem stalled_limited {k : ℕ} (h : (env k).keep = false)
    (hl : limitedAfter c env F adaptive k = true) :
    stalled c env F adaptive (k + 1) = stalled c env F adaptive k + 1 := by
  simp [stalled, List.range_succ, h, hl]

theorem stalled_free {k : ℕ} (h : (env k).keep = false)
    (hl : limitedAfter c env F adaptive k = false) :
    stalled c env F adaptive (k + 1) = stalled c env F adaptive k := by
  simp [stalled, List.range_succ, h, hl]

/-- State of the range before generation `k`. -/
def fm (k : ℕ) : FManager.FM K :=
  FManager.run c (FManager.init c F adaptive) ((List.range k).map (request env))

theorem fm_succ (k : ℕ) :
    fm c env F adaptive (k + 1) = FManager.step c (fm c env F adaptive k) (request env k) := by
  simp [fm, FManager.run, List.range_succ]

theorem loop_gaveUp (cfg : Cfg) (n kg dwell k : ℕ)
    (hd : cfg.bitterEnd = false → dwell = stalled c env F adaptive kg)
    (hd2 : cfg.bitterEnd = false → dwell ≤ cfg.dwellByGrave) :
    (loop cfg c env n kg (fm c env F adaptive kg) dwell).2 = .gaveUp k ↔
      kg ≤ k ∧ k < kg + n ∧ cfg.bitterEnd = false ∧ goalSet cfg = false ∧
      (∀ i, kg ≤ i → i ≤ k → Undisturbed cfg (env i)) ∧
      (∀ i, kg ≤ i → i < k → stalled c env F adaptive (i + 1) ≤ cfg.dwellByGrave) ∧
      cfg.dwellByGrave < stalled c env F adaptive (k + 1) := by
  induction n generalizing kg dwell with
  | zero => simp [loop]; intros; omega
  | succ n ih =>
    -- a step that goes on
    have cont : ∀ dwell' : ℕ,
        (cfg.bitterEnd = false → dwell' = stalled c env F adaptive (kg + 1)) →
        (cfg.bitterEnd = false → dwell' ≤ cfg.dwellByGrave) →
        Undisturbed cfg (env kg) →
        ((loop cfg c env n (kg + 1) (fm c env F adaptive (kg + 1)) dwell').2 = .gaveUp k ↔
          kg ≤ k ∧ k < kg + (n + 1) ∧ cfg.bitterEnd = false ∧ goalSet cfg = false ∧
          (∀ i, kg ≤ i → i ≤ k → Undisturbed cfg (env i)) ∧
          (∀ i, kg ≤ i → i < k → stalled c env F adaptive (i + 1) ≤ cfg.dwellByGrave) ∧
          cfg.dwellByGrave < stalled c env F adaptive (k + 1)) := by
      intro dwell' a1 a2 a3
      rw [ih (kg + 1) dwell' a1 a2]
      constructor
      · rintro ⟨b1, b2, b3, b4, b5, b6, b7⟩
        refine ⟨by omega, by omega, b3, b4, ?_, ?_, b7⟩
        · intro i h1 h2
          rcases Nat.eq_or_lt_of_le h1 with rfl | h1
          · exact a3
          · exact b5 i h1 h2
        · intro i h1 h2
          rcases Nat.eq_or_lt_of_le h1 with rfl | h1
          · rw [← a1 b3]; exact a2 b3
          · exact b6 i h1 h2
      · rintro ⟨b1, b2, b3, b4, b5, b6, b7⟩
        have hne : kg ≠ k := by
          rintro rfl
          have := a1 b3
          have := a2 b3
          omega
        exact ⟨by omega, by omega, b3, b4, fun i h1 h2 => b5 i (by omega) h2,
          fun i h1 h2 => b6 i (by omega) h2, b7⟩
    simp only [loop]
    cases he : (evolve cfg (env kg) kg).2 with
    | false =>
      simp only [Bool.not_false, if_true]
      constructor
      · intro h; cases h
      · rintro ⟨b1, -, -, -, b5, -, -⟩
        have := (evolve_iff cfg (env kg) kg).2 (b5 kg le_rfl b1)
        rw [he] at this; cases this
    | true =>
      have hu := (evolve_iff cfg (env kg) kg).1 he
      simp only [Bool.not_true, Bool.false_eq_true, if_false]
      cases hg : goalSet cfg with
      | true => simp
      | false =>
        simp only [hg, true_and] at cont
        simp only [Bool.false_eq_true, if_false]
        cases hk : (env kg).keep with
        | true =>
          have h := cont 0 (fun _ => (stalled_keep c env F adaptive hk).symm) (fun _ => by omega) hu
          rw [fm_succ, show request env kg = .up by simp [request, hk]] at h
          simpa [FManager.step] using h
        | false =>
          have hreq : request env kg = .down := by simp [request, hk]
          have hlim : (FManager.down c (fm c env F adaptive kg)).limited =
              limitedAfter c env F adaptive kg := by
            have : limitedAfter c env F adaptive kg = (fm c env F adaptive (kg + 1)).limited := rfl
            rw [this, fm_succ, hreq]; rfl
          simp only [Bool.false_eq_true, if_false]
          by_cases hl : (!cfg.bitterEnd && (FManager.down c (fm c env F adaptive kg)).limited) = true
          · rw [if_pos hl]
            simp only [Bool.and_eq_true, Bool.not_eq_true'] at hl
            rw [hlim] at hl
            have hs := stalled_limited c env F adaptive hk hl.2
            by_cases hdw : dwell + 1 > cfg.dwellByGrave
            · rw [if_pos hdw]
              have := hd hl.1
              constructor
              · intro h
                injection h with h
                subst h
                exact ⟨le_rfl, by omega, hl.1, by trivial, fun i h1 h2 => by
                  rw [show i = kg by omega]; exact hu, fun i h1 h2 => by omega, by omega⟩
              · rintro ⟨b1, b2, b3, b4, b5, b6, b7⟩
                rcases Nat.eq_or_lt_of_le b1 with h | h
                · subst h; rfl
                · have := b6 kg le_rfl h
                  omega
            · rw [if_neg hdw]
              have h := cont (dwell + 1) (fun hb => by rw [hs, hd hb]) (fun _ => by omega) hu
              rw [fm_succ, hreq] at h
              simpa [FManager.step] using h
          · rw [if_neg hl]
            have h := cont dwell (fun hb => by
              rw [stalled_free c env F adaptive hk, hd hb]
              rw [hb, hlim] at hl
              simpa using hl) hd2 hu
            rw [fm_succ, hreq] at h
            simpa [FManager.step] using h

end stalled

/-- The outcome of a run is that of its loop. -/
theorem run_outcome (cfg : Cfg) (c : FManager.Consts K) (env : ℕ → Env) (F : FManager.FVal K)
    (adaptive : Bool) : (run cfg c env F adaptive).2 =
      (loop cfg c env cfg.maxiter 0 (FManager.init c F adaptive) 0).2 := by
  unfold run
  simp only
  cases h : (loop cfg c env cfg.maxiter 0 (FManager.init c F adaptive) 0).2 with
  | maximum => simp only; split <;> simp [h]
  | aborted k => exact h
  | gaveUp k => rfl
  | typeError k => exact h

/-- C33: a run gives up in generation `k` exactly if it is not run to the bitter end, no goal is set,
nothing disturbs it up to then, and `k` is the first generation after which the range has been limited
in more than `dwellByGrave` generations since the last one that kept the status quo. -/
theorem C33_gives_up_iff (cfg : Cfg) (c : FManager.Consts K) (env : ℕ → Env) (F : FManager.FVal K)
    (adaptive : Bool) (k : ℕ) :
    (run cfg c env F adaptive).2 = .gaveUp k ↔
      k < cfg.maxiter ∧ cfg.bitterEnd = false ∧ goalSet cfg = false ∧
      (∀ i ≤ k, Undisturbed cfg (env i)) ∧
      (∀ i < k, stalled c env F adaptive (i + 1) ≤ cfg.dwellByGrave) ∧
      cfg.dwellByGrave < stalled c env F adaptive (k + 1) := by
  rw [run_outcome]
  have := loop_gaveUp c env F adaptive cfg cfg.maxiter 0 0 k (fun _ => rfl) (fun _ => by omega)
  simp only [fm, List.range_zero, List.map_nil, FManager.run, List.foldl_nil, Nat.zero_le,
    true_and, Nat.zero_add, forall_const] at this
  exact this

/-- C33: with `bitterEnd` set, an undisturbed run without a goal always makes the maximum number of
generations. -/
theorem C33_bitter_end (cfg : Cfg) (c : FManager.Consts K) (env : ℕ → Env) (F : FManager.FVal K)
    (adaptive : Bool) (hb : cfg.bitterEnd = true) (hg : goalSet cfg = false)
    (hu : ∀ i < cfg.maxiter, Undisturbed cfg (env i)) :
    (run cfg c env F adaptive).2 = .maximum := by
  rw [run_outcome]
  have key : ∀ (n kg : ℕ) (G : FManager.FM K) (d : ℕ), kg + n = cfg.maxiter →
      (loop cfg c env n kg G d).2 = .maximum := by
    intro n
    induction n with
    | zero => intros; rfl
    | succ n ih =>
      intro kg G d h
      simp only [loop, (evolve_iff cfg (env kg) kg).2 (hu kg (by omega)), hg, hb]
      simp only [Bool.not_true, Bool.false_eq_true, if_false, Bool.false_and]
      split
      · exact ih _ _ _ (by omega)
      · exact ih _ _ _ (by omega)
  exact key _ _ _ _ (by omega)

/-- C33: a run with a range that does not adapt never gives up. -/
theorem C33_not_adaptive_never (cfg : Cfg) (c : FManager.Consts K) (env : ℕ → Env)
    (F : FManager.FVal K) (adaptive : Bool) (h : adaptive = false ∨ ∃ hi, F = .range 0 hi) (k : ℕ) :
    (run cfg c env F adaptive).2 ≠ .gaveUp k := by
  intro hk
  rw [C33_gives_up_iff] at hk
  have hs : stalled c env F adaptive (k + 1) = 0 := by
    simp only [stalled, List.length_eq_zero_iff, List.filter_eq_nil_iff]
    intro i _
    have := (FManager.C23_not_adaptive_fixed c F adaptive h
      ((List.range (i + 1)).map (request env))).2
    simp [limitedAfter, this]
  omega

/-! ## C34 -/

/-- C34, what holds: a run without a goal (or with goal zero) never fails. -/
theorem C34_no_goal_partial (cfg : Cfg) (c : FManager.Consts K) (env : ℕ → Env) (F : FManager.FVal K)
    (adaptive : Bool) (hg : cfg.goal = none ∨ cfg.goal = some 0) (k : ℕ) :
    (run cfg c env F adaptive).2 ≠ .typeError k := by
  have hg' : goalSet cfg = false := by rcases hg with h | h <;> simp [goalSet, h]
  rw [run_outcome]
  have key : ∀ (n kg : ℕ) (G : FManager.FM K) (d : ℕ), (loop cfg c env n kg G d).2 ≠ .typeError k := by
    intro n
    induction n with
    | zero => intro kg G d h; cases h
    | succ n ih =>
      intro kg G d
      simp only [loop, hg']
      split
      · intro h; cases h
      · simp only [Bool.false_eq_true, if_false]
        split
        · exact ih _ _ _
        · split
          · split
            · intro h; cases h
            · exact ih _ _ _
          · exact ih _ _ _
  exact key _ _ _ _

/-- C34 is false for the code: with any goal other than zero set, a run whose first generation is
undisturbed fails at the end of that generation, without the callback or final report. -/
theorem C34_goal_fails (cfg : Cfg) (c : FManager.Consts K) (env : ℕ → Env) (F : FManager.FVal K)
    (adaptive : Bool) (g : ℚ) (hg : cfg.goal = some g) (h0 : g ≠ 0) (hm : 0 < cfg.maxiter)
    (hu : Undisturbed cfg (env 0)) :
    (run cfg c env F adaptive).2 = .typeError 0 ∧ callbacks (run cfg c env F adaptive).1 = [] ∧
      Event.report ∉ (run cfg c env F adaptive).1 := by
  have hg' : goalSet cfg = true := by simp [goalSet, hg, h0]
  have he := (evolve_iff cfg (env 0) 0).2 hu
  obtain ⟨ps, -, h3⟩ := evolve_full he
  obtain ⟨n, hn⟩ : ∃ n, cfg.maxiter = n + 1 := ⟨cfg.maxiter - 1, by omega⟩
  have : run cfg c env F adaptive = ((evolve cfg (env 0) 0).1, .typeError 0) := by
    simp [run, hn, loop, he, hg']
  rw [this]
  refine ⟨rfl, ?_, ?_⟩
  · rw [h3]; exact callbacks_challenges 0 ps
  · rw [h3]; simp

/-! ## C25: the base of every challenge -/

/-- A base index allowed for target `kt`: with a fixed base, the best index unless that is the target
itself; in all other cases what `Population.sample` answered. -/
def BaseRule (cfg : Cfg) (e : Env) (kt kb : ℕ) : Prop :=
  (cfg.randomBase = false → kt ≠ e.kBest kt → kb = e.kBest kt) ∧
    (cfg.randomBase = true ∨ kt = e.kBest kt → e.sample kt = some kb)

theorem base_rule {cfg : Cfg} {e : Env} {kt kb : ℕ} (h : base cfg e kt = some kb) :
    BaseRule cfg e kt kb := by
  unfold base at h
  constructor
  · intro h1 h2
    have hb : (kt == e.kBest kt) = false := by simpa using h2
    rw [h1, hb] at h
    exact (Option.some.inj h).symm
  · intro h1
    rcases h1 with h1 | h1
    · simpa [h1] using h
    · have hb : (kt == e.kBest kt) = true := by rw [← h1]; exact beq_self_eq_true kt
      rw [hb, Bool.or_true, if_pos rfl] at h
      exact h

theorem issue_rule (cfg : Cfg) (e : Env) (kg : ℕ) (kts : List ℕ) (g kt kb : ℕ)
    (h : Event.challenge g kt kb ∈ (issue cfg e kg kts).1) :
    g = kg ∧ kt ∈ kts ∧ BaseRule cfg e kt kb := by
  induction kts with
  | nil => simp [issue] at h
  | cons i kts ih =>
    simp only [issue] at h
    cases hb : base cfg e i with
    | none => rw [hb] at h; simp at h
    | some b =>
      rw [hb] at h
      cases hr : e.running1 i with
      | false =>
        rw [hr] at h
        simp at h
        obtain ⟨rfl, rfl, rfl⟩ := h
        exact ⟨rfl, by simp, base_rule hb⟩
      | true =>
        rw [hr] at h
        simp at h
        rcases h with ⟨rfl, rfl, rfl⟩ | h
        · exact ⟨rfl, by simp, base_rule hb⟩
        · obtain ⟨h1, h2, h3⟩ := ih h
          exact ⟨h1, List.mem_cons_of_mem _ h2, h3⟩

theorem evolve_rule (cfg : Cfg) (e : Env) (kg : ℕ) (g kt kb : ℕ)
    (h : Event.challenge g kt kb ∈ (evolve cfg e kg).1) :
    g = kg ∧ kt < cfg.Np ∧ BaseRule cfg e kt kb := by
  have key : Event.challenge g kt kb ∈ (issue cfg e kg (List.range cfg.Np)).1 := by
    simp only [evolve] at h
    split_ifs at h
    · simp at h
    · simpa using h
    · simpa using h
    · simpa using h
  obtain ⟨h1, h2, h3⟩ := issue_rule cfg e kg _ g kt kb key
  exact ⟨h1, List.mem_range.1 h2, h3⟩

theorem loop_rule (cfg : Cfg) (c : FManager.Consts K) (env : ℕ → Env) (n kg : ℕ) (F : FManager.FM K)
    (dwell g kt kb : ℕ) (h : Event.challenge g kt kb ∈ (loop cfg c env n kg F dwell).1) :
    kt < cfg.Np ∧ BaseRule cfg (env g) kt kb := by
  induction n generalizing kg F dwell with
  | zero => simp [loop] at h
  | succ n ih =>
    have key : Event.challenge g kt kb ∈ (evolve cfg (env kg) kg).1 →
        kt < cfg.Np ∧ BaseRule cfg (env g) kt kb := by
      intro h
      obtain ⟨rfl, h2, h3⟩ := evolve_rule cfg (env kg) kg g kt kb h
      exact ⟨h2, h3⟩
    simp only [loop] at h
    split_ifs at h
    · exact key h
    · exact key h
    · simp at h
      rcases h with h | h
      · exact key h
      · exact ih _ _ _ h
    · simp at h
      exact key h
    · simp at h
      rcases h with h | h
      · exact key h
      · exact ih _ _ _ h
    · simp at h
      rcases h with h | h
      · exact key h
      · exact ih _ _ _ h

/-- C25: every challenge of a run is aimed at a member of the population, and its base is chosen by the
rule: the best index unless that is the target or a random base is wanted, and otherwise the sampled
index. -/
theorem C25_base_rule (cfg : Cfg) (c : FManager.Consts K) (env : ℕ → Env) (F : FManager.FVal K)
    (adaptive : Bool) (g kt kb : ℕ)
    (h : Event.challenge g kt kb ∈ (run cfg c env F adaptive).1) :
    kt < cfg.Np ∧ BaseRule cfg (env g) kt kb := by
  refine loop_rule cfg c env cfg.maxiter 0 (FManager.init c F adaptive) 0 g kt kb ?_
  simp only [run] at h
  split at h
  · split_ifs at h
    · simpa using h
    · exact h
  · simpa using h
  · exact h
  · exact h

/-- C25: as sampling for a target never yields that target (C13), no challenge has its target as its
base. -/
theorem C25_base_not_target (cfg : Cfg) (c : FManager.Consts K) (env : ℕ → Env) (F : FManager.FVal K)
    (adaptive : Bool) (hs : ∀ (k kt kb : ℕ), (env k).sample kt = some kb → kb ≠ kt) (g kt kb : ℕ)
    (h : Event.challenge g kt kb ∈ (run cfg c env F adaptive).1) : kb ≠ kt := by
  obtain ⟨-, h1, h2⟩ := C25_base_rule cfg c env F adaptive g kt kb h
  cases hr : cfg.randomBase with
  | true => exact hs g kt kb (h2 (Or.inl hr))
  | false =>
    by_cases hk : kt = (env g).kBest kt
    · exact hs g kt kb (h2 (Or.inr hk))
    · rw [h1 hr hk]; exact fun h => hk h.symm

/-! ## C32: calling the object -/

/-- C32: a population whose setup was aborted is not run on; any other one gets its best individual
reported and is then run on. -/
theorem C32_call (cfg : Cfg) (c : FManager.Consts K) (env : ℕ → Env) (F : FManager.FVal K)
    (adaptive popRunning : Bool) :
    (call cfg c env F adaptive popRunning = none ↔ popRunning = false) ∧
      ∀ r, call cfg c env F adaptive popRunning = some r →
        r.1 = .report :: (run cfg c env F adaptive).1 ∧ r.2 = (run cfg c env F adaptive).2 := by
  cases popRunning with
  | false => simp [call]
  | true => simp [call]

/-! ## Examples -/

/-- A quiet environment: nothing stops the run; the status quo is kept in generation 1 only. -/
def quiet (k : ℕ) : Env :=
  ⟨true, fun _ => 2, fun kt => some ((kt + 1) % 4), fun _ => true, true, true, k == 1, true⟩

/-- Configuration of the examples: at most twelve generations of four members. -/
def demoCfg : Cfg := ⟨12, 4, false, 1, false, none⟩

/-- Non-vacuity: the quiet run with the narrow range (0.12, 0.4) gives up in generation 5. -/
example : (run demoCfg FManager.demo quiet (.range (12 / 100) (4 / 10)) true).2 = .gaveUp 5 ∧
    callbacks (run demoCfg FManager.demo quiet (.range (12 / 100) (4 / 10)) true).1 = [0, 1, 2, 3, 4] ∧
    targets 3 (run demoCfg FManager.demo quiet (.range (12 / 100) (4 / 10)) true).1 = [0, 1, 2, 3] := by
  decide +kernel

/-- Non-vacuity of the C25 base rule: the target 2, which is the best, gets a sampled base, the target 1
the best one; and the sampled index is never the target. -/
example : Event.challenge 3 2 3 ∈ (run demoCfg FManager.demo quiet (.range (12 / 100) (4 / 10)) true).1 ∧
    Event.challenge 3 1 2 ∈ (run demoCfg FManager.demo quiet (.range (12 / 100) (4 / 10)) true).1 := by
  decide +kernel

theorem quiet_sample (k kt kb : ℕ) (h : (quiet k).sample kt = some kb) : kb ≠ kt := by
  simp only [quiet, Option.some.injEq] at h
  omega

/-- Non-vacuity of C32_call: the run reports first. -/
example : (call { demoCfg with maxiter := 1 } FManager.demo quiet (.range (12 / 100) (4 / 10)) true
    true).map (fun r => r.1.take 2) = some [.report, .generation 0] := by
  decide +kernel

/-- Non-vacuity: with the bitter end it makes all twelve generations. -/
example : (run { demoCfg with bitterEnd := true } FManager.demo quiet
    (.range (12 / 100) (4 / 10)) true).2 = .maximum := by
  decide +kernel

/-- Non-vacuity: every generation of the quiet environment is undisturbed. -/
theorem quiet_undisturbed (k : ℕ) : Undisturbed demoCfg (quiet k) := by
  refine ⟨rfl, fun kt _ => ⟨?_, rfl⟩, rfl, rfl⟩
  unfold base demoCfg quiet
  simp only [Bool.false_or]
  split <;> rfl

example := C33_bitter_end { demoCfg with bitterEnd := true } FManager.demo quiet (.range (12 / 100) (4 / 10)) true
  rfl rfl (fun i _ => quiet_undisturbed i)

example := C33_not_adaptive_never demoCfg FManager.demo quiet (.range (12 / 100) (4 / 10)) false (.inl rfl) 5

example := C34_no_goal_partial demoCfg FManager.demo quiet (.range (12 / 100) (4 / 10)) true (.inl rfl) 5

example := C34_goal_fails { demoCfg with goal := some 3 } FManager.demo quiet (.range (12 / 100) (4 / 10)) true 3 rfl
  (by norm_num) (by decide) (quiet_undisturbed 0)

example := C25_base_rule demoCfg FManager.demo quiet (.range (12 / 100) (4 / 10)) true 3 2 3 (by decide +kernel)

example := C25_base_not_target demoCfg FManager.demo quiet (.range (12 / 100) (4 / 10)) true quiet_sample 3 2 3
  (by decide +kernel)

end RunLoop
end Ade
