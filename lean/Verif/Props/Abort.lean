import Verif.Model.Abort
import Mathlib.Algebra.BigOperators.Group.List.Basic
import Mathlib.Algebra.Order.BigOperators.Group.List
import Mathlib.Algebra.Order.Ring.Nat

/-!
# Aborting by a key press (C53)
-/

set_option autoImplicit false

namespace Ade
namespace Abort

variable (raises : ℕ → Bool)

/-- The function an event registers with a keyboard that is still waiting for a key press. -/
def accepted1 (s : St) : Event → List ℕ
  | .register f true => if s.alive then [f] else []
  | _ => []

/-- Functions that were registered with a keyboard that was still waiting for a key press. -/
def accepted (s : St) : List Event → List ℕ
  | [] => []
  | e :: es => accepted1 s e ++ accepted (step raises s e) es

theorem runDown_append (fs : List ℕ) : (runDown raises fs).1 ++ (runDown raises fs).2.1 = fs := by
  induction fs with
  | nil => rfl
  | cons f fs ih =>
    unfold runDown
    split_ifs
    · rfl
    · simp [ih]

theorem runDown_none (fs : List ℕ) (h : ∀ f ∈ fs, raises f = false) :
    runDown raises fs = (fs, [], false) := by
  induction fs with
  | nil => rfl
  | cons f fs ih =>
    simp [runDown, h f List.mem_cons_self, ih fun g hg => h g (List.mem_cons_of_mem _ hg)]

theorem runDown_raise (as bs : List ℕ) (f : ℕ) (h : ∀ g ∈ as, raises g = false)
    (hf : raises f = true) : runDown raises (as ++ f :: bs) = (as ++ [f], bs, true) := by
  induction as with
  | nil => simp [runDown, hf]
  | cons a as ih =>
    have := ih fun g hg => h g (List.mem_cons_of_mem _ hg)
    simp [runDown, h a List.mem_cons_self, this]

theorem dataReceived_total (s : St) :
    (dataReceived raises s).called ++ (dataReceived raises s).callbacks =
      s.called ++ s.callbacks := by
  unfold dataReceived
  split_ifs with h
  · rfl
  · have := runDown_append raises s.callbacks
    simp only
    split_ifs <;> simp [shutdown, this]

theorem step_total (s : St) (e : Event) (he : e ≠ .restart) :
    (step raises s e).called ++ (step raises s e).callbacks =
      s.called ++ s.callbacks ++ accepted1 s e := by
  cases e with
  | register f c =>
    cases c <;> cases h : s.alive <;> simp [step, callOnAbort, accepted1, h]
  | press => simp [step, dataReceived_total, accepted1]
  | abortNow => simp [step, accepted1]
  | turn =>
    simp only [step]
    match h : s.later with
    | [] => simp [accepted1]
    | .func f :: rest => simp [accepted1]
    | .press :: rest =>
      simp only
      rw [dataReceived_total]
      simp [accepted1]
  | shutdown => simp [step, shutdown, accepted1]
  | restart => exact absurd rfl he
  | ignore => simp [step, accepted1]

/-- C53: between two restarts, the functions called so far and those still to be called are together
exactly the registered functions, in the order of registration, each as often as it was registered;
however key presses, failures and other events are interleaved. -/
theorem C53_in_order_once (s : St) (es : List Event) (h : Event.restart ∉ es) :
    (run raises s es).called ++ (run raises s es).callbacks =
      s.called ++ s.callbacks ++ accepted raises s es := by
  induction es generalizing s with
  | nil => simp [run, accepted]
  | cons e es ih =>
    have h1 : e ≠ .restart := fun h' => h (by simp [h'])
    have h2 : Event.restart ∉ es := fun h' => h (List.mem_cons_of_mem _ h')
    have e1 : run raises s (e :: es) = run raises (step raises s e) es := rfl
    rw [e1, ih _ h2, step_total raises s e h1, List.append_assoc]
    rfl

example := C53_in_order_once (fun _ => false) start [.register 5 true, .press, .register 3 true] (by decide)

theorem run_registers (s : St) (fs : List ℕ) (h : s.alive = true) :
    run raises s (fs.map fun f => .register f true) = { s with callbacks := s.callbacks ++ fs } := by
  induction fs generalizing s with
  | nil => simp [run]
  | cons f fs ih =>
    have e1 : run raises s ((f :: fs).map fun f => .register f true) =
        run raises (step raises s (.register f true)) (fs.map fun f => .register f true) := rfl
    rw [e1]
    have e2 : step raises s (.register f true) = { s with callbacks := s.callbacks ++ [f] } := by
      simp [step, callOnAbort, h]
    rw [e2, ih _ (by exact h)]
    simp

/-- C53: a key press calls every registered function once, in order of registration (if none fails),
and only those registered since the last restart. -/
theorem C53_press_calls_all (s : St) (fs : List ℕ) (h : ∀ f ∈ fs, raises f = false) :
    (run raises s (.restart :: (fs.map fun f => .register f true) ++ [.press])).called =
      s.called ++ fs := by
  have e : run raises s (.restart :: (fs.map fun f => .register f true) ++ [.press]) =
      step raises (run raises (step raises s .restart) (fs.map fun f => .register f true)) .press := by
    simp [run]
  rw [e, run_registers raises _ fs rfl]
  simp [step, dataReceived, runDown_none raises fs h, shutdown]

/-- C53: the first key press of a program calls every function registered before it, once, in order of
registration (if none fails). -/
theorem C53_first_press (fs : List ℕ) (h : ∀ f ∈ fs, raises f = false) :
    (run raises start ((fs.map fun f => .register f true) ++ [.press])).called = fs := by
  have e : run raises start ((fs.map fun f => .register f true) ++ [.press]) =
      step raises (run raises start (fs.map fun f => .register f true)) .press := by
    simp [run]
  rw [e, run_registers raises _ fs rfl]
  simp [step, dataReceived, runDown_none raises fs h, start]
  simp [shutdown]

example := C53_first_press (fun f => f == 7) [5, 3] (by decide)

example := C53_press_calls_all (fun f => f == 7) start [5, 3] (by decide)

/-- C53: once a key press has called everything, no event other than a restart calls anything from the
keyboard again. -/
theorem C53_second_press_nothing (s : St) (es : List Event) (h : Event.restart ∉ es)
    (hc : s.callbacks = []) (ha : s.alive = false) :
    (run raises s es).called = s.called ∧ (run raises s es).callbacks = [] := by
  have key : ∀ (es : List Event) (s : St), Event.restart ∉ es → s.callbacks = [] →
      s.alive = false → (run raises s es).called = s.called ∧ (run raises s es).callbacks = [] := by
    intro es
    induction es with
    | nil => intro s _ hc _; exact ⟨rfl, hc⟩
    | cons e es ih =>
      intro s h hc ha
      have h1 : e ≠ .restart := fun h' => h (by simp [h'])
      have h2 : Event.restart ∉ es := fun h' => h (List.mem_cons_of_mem _ h')
      have hd : ∀ t : St, t.callbacks = [] → t.alive = false → dataReceived raises t = t := by
        intro t h1 h2
        obtain ⟨a, b, c, d, e, f⟩ := t
        simp only at h1 h2
        subst h1 h2
        cases c <;> simp [dataReceived, runDown, shutdown]
      have hs : (step raises s e).called = s.called ∧ (step raises s e).callbacks = [] ∧
          (step raises s e).alive = false := by
        cases e with
        | register f c => cases c <;> simp [step, callOnAbort, hc, ha]
        | press => simp only [step, hd s hc ha]; exact ⟨trivial, hc, ha⟩
        | abortNow => exact ⟨rfl, hc, ha⟩
        | turn =>
          simp only [step]
          match s.later with
          | [] => exact ⟨rfl, hc, ha⟩
          | .func f :: rest => exact ⟨rfl, hc, ha⟩
          | .press :: rest =>
            simp only
            rw [hd _ (by exact hc) (by exact ha)]
            exact ⟨rfl, hc, ha⟩
        | shutdown => exact ⟨rfl, hc, rfl⟩
        | restart => exact absurd rfl h1
        | ignore => exact ⟨rfl, hc, ha⟩
      have h3 := ih (step raises s e) h2 hs.2.1 hs.2.2
      exact ⟨h3.1.trans hs.1, h3.2⟩
  exact key es s h hc ha

example : let s := run (fun _ => false) start [.register 5 true, .register 3 true, .press]
    s.called = [5, 3] ∧ s.callbacks = [] ∧ s.alive = false := by decide

/-- C53: if a function fails, the functions after it are not called by that key press, but by the next
one, in order; none is called twice. -/
theorem C53_failure_continues (s : St) (as bs : List ℕ) (f : ℕ) (ha : ∀ g ∈ as, raises g = false)
    (hf : raises f = true) (hb : ∀ g ∈ bs, raises g = false) (hi : s.ignoreAll = false)
    (hc : s.callbacks = as ++ f :: bs) :
    (run raises s [.press]).called = s.called ++ as ++ [f] ∧
    (run raises s [.press, .press]).called = s.called ++ as ++ [f] ++ bs ∧
    (run raises s [.press, .press]).callbacks = [] := by
  have h1 : run raises s [.press] = { s with called := s.called ++ (as ++ [f]), callbacks := bs } := by
    simp [run, step, dataReceived, hi, hc, runDown_raise raises as bs f ha hf]
  have h2 : run raises s [.press, .press] =
      step raises { s with called := s.called ++ (as ++ [f]), callbacks := bs } .press := by
    rw [← h1]; rfl
  refine ⟨by rw [h1]; simp, ?_, ?_⟩
  · rw [h2]
    simp [step, dataReceived, hi, runDown_none raises bs hb, shutdown]
  · rw [h2]
    simp [step, dataReceived, hi, runDown_none raises bs hb, shutdown]

example : (run (fun f => f = 3) start
    [.register 5 true, .register 3 true, .register 4 true, .press, .press]).called = [5, 3, 4] := by
  decide

/-- C53: a function registered after an abort is called once, when the reactor gets to it. -/
theorem C53_late_registration (s : St) (f : ℕ) (ha : s.alive = false) (hl : s.later = []) :
    (run raises s [.register f true, .turn, .turn]).calledLater = s.calledLater ++ [f] := by
  simp [run, step, callOnAbort, ha, hl]

example : (run (fun _ => false) start [.press, .register 3 true, .turn, .turn]).calledLater = [3] := by
  decide

/-- C53: `abortNow` has the same effect as a key press, once the reactor gets to it. -/
theorem C53_abort_now (s : St) (fs : List ℕ) (h : ∀ f ∈ fs, raises f = false)
    (hc : s.callbacks = fs) (hi : s.ignoreAll = false) (hl : s.later = []) :
    (run raises s [.abortNow, .turn]).called = s.called ++ fs ∧
    (run raises s [.abortNow, .turn]) = run raises s [.press] := by
  obtain ⟨c1, c2, c3, c4, c5, c6⟩ := s
  simp only at hc hi hl
  subst hc hi hl
  simp [run, step, dataReceived, runDown_none raises c1 h, shutdown]

example : (run (fun _ => false) start [.register 5 true, .abortNow, .turn]).called = [5] := by
  decide +kernel

theorem ignore_step (s : St) (e : Event) (hi : s.ignoreAll = true) (he : e ≠ .restart) :
    (step raises s e).called = s.called ∧ (step raises s e).ignoreAll = true := by
  cases e with
  | register f c => cases c <;> cases h : s.alive <;> simp [step, callOnAbort, h, hi]
  | press => simp [step, dataReceived, hi]
  | abortNow => exact ⟨rfl, hi⟩
  | turn =>
    simp only [step]
    match s.later with
    | [] => exact ⟨rfl, hi⟩
    | .func f :: rest => exact ⟨rfl, hi⟩
    | .press :: rest => simp [dataReceived, hi]
  | shutdown => exact ⟨rfl, hi⟩
  | restart => exact absurd rfl he
  | ignore => exact ⟨rfl, rfl⟩

/-- C53: after `ignoreKeyboard`, neither key presses nor anything else call a registered function, until
a restart. -/
theorem C53_ignored (s : St) (es : List Event) (h : Event.restart ∉ es) :
    (run raises s (.ignore :: es)).called = s.called := by
  have key : ∀ (es : List Event) (s : St), Event.restart ∉ es → s.ignoreAll = true →
      (run raises s es).called = s.called := by
    intro es
    induction es with
    | nil => intro s _ _; rfl
    | cons e es ih =>
      intro s h hi
      have hs := ignore_step raises s e hi fun h' => h (by simp [h'])
      have e1 : run raises s (e :: es) = run raises (step raises s e) es := rfl
      rw [e1, ih _ (fun h' => h (List.mem_cons_of_mem _ h')) hs.2, hs.1]
  exact key es _ h rfl

example : (run (fun _ => false) start [.register 5 true, .ignore, .press]).called = [] := by
  decide +kernel

/-- A clean shutdown counts as an abort: functions registered after it are called although no key was
pressed (and those registered before it are not). -/
theorem C53_registered_after_shutdown_runs :
    let s := run raises start [.register 1 true, .shutdown, .register 2 true, .turn]
    s.called = [] ∧ s.calledLater = [2] := by
  simp [run, step, callOnAbort, start, shutdown]

/-! ## Functions that register others when they are called -/

/-- C53: functions that are registered by functions being called are called as well: at any time, those called so far, followed by those
waiting, are the ones registered before the key press, followed by those registered by the ones called so far, in this order. -/
theorem C53_registered_meanwhile (registers : ℕ → List ℕ) (n : ℕ) (fs : List ℕ) :
    (runDownWith registers n fs).1 ++ (runDownWith registers n fs).2 = fs ++ (runDownWith registers n fs).1.flatMap registers := by
  induction n generalizing fs with
  | zero => cases fs <;> simp [runDownWith]
  | succ n ih =>
    cases fs with
    | nil => simp [runDownWith]
    | cons f fs =>
      have := ih (fs ++ registers f)
      simp only [runDownWith, List.flatMap_cons, List.cons_append, this]
      simp

/-- The number of calls that a function leads to, registrations being followed to the given depth. -/
def weight (registers : ℕ → List ℕ) : ℕ → ℕ → ℕ
  | 0, _ => 1
  | d + 1, f => 1 + ((registers f).map (weight registers d)).sum

theorem weight_mono (registers : ℕ → List ℕ) (d f : ℕ) : weight registers d f ≤ weight registers (d + 1) f := by
  induction d generalizing f with
  | zero => simp [weight]
  | succ d ih =>
    rw [weight, weight]
    have := List.sum_le_sum (l := registers f) (f := weight registers d) (g := weight registers (d + 1)) fun g _ => ih g
    omega

theorem weight_le (registers : ℕ → List ℕ) (f : ℕ) {d e : ℕ} (h : d ≤ e) : weight registers d f ≤ weight registers e f := by
  induction e, h using Nat.le_induction with
  | base => exact le_rfl
  | succ e _ ih => exact ih.trans (weight_mono registers e f)

theorem ends_of_weight (registers : ℕ → List ℕ) (w : ℕ → ℕ) (hw : ∀ f, ((registers f).map w).sum < w f) (n : ℕ) (fs : List ℕ)
    (h : (fs.map w).sum ≤ n) : (runDownWith registers n fs).2 = [] := by
  induction n generalizing fs with
  | zero =>
    cases fs with
    | nil => rfl
    | cons f fs => have := hw f; simp only [List.map_cons, List.sum_cons] at h; omega
  | succ n ih =>
    cases fs with
    | nil => rfl
    | cons f fs =>
      have := hw f
      simp only [List.map_cons, List.sum_cons] at h
      exact ih (fs ++ registers f) (by rw [List.map_append, List.sum_append]; omega)

/-- C53: the calling ends if functions register only functions of a lower rank. -/
theorem C53_ends (registers : ℕ → List ℕ) (rank : ℕ → ℕ) (h : ∀ f, ∀ g ∈ registers f, rank g < rank f) (fs : List ℕ) :
    ∃ n, (runDownWith registers n fs).2 = [] := by
  refine ⟨_, ends_of_weight registers (fun f => weight registers (rank f) f) (fun f => ?_) _ fs le_rfl⟩
  cases hr : rank f with
  | zero =>
    have : registers f = [] := by
      rw [List.eq_nil_iff_forall_not_mem]
      intro g hg
      have := h f g hg
      omega
    simp [this, weight]
  | succ d =>
    have : ((registers f).map fun g => weight registers (rank g) g).sum ≤ ((registers f).map (weight registers d)).sum :=
      List.sum_le_sum fun g hg => weight_le registers g (by have := h f g hg; omega)
    rw [weight]
    omega

/-- A function that registers itself when called is called again and again without end. -/
theorem C53_never_ends (registers : ℕ → List ℕ) (f : ℕ) (fs : List ℕ) (hf : f ∈ fs) (hr : f ∈ registers f) (n : ℕ) :
    (runDownWith registers n fs).2 ≠ [] := by
  intro h
  have e := C53_registered_meanwhile registers n fs
  rw [h, List.append_nil] at e
  generalize (runDownWith registers n fs).1 = cs at e
  have hc := congrArg (List.count f) e
  rw [List.count_append, List.count_flatMap] at hc
  have h1 : 0 < List.count f fs := List.count_pos_iff.2 hf
  have h2 : List.count f cs ≤ (cs.map (List.count f ∘ registers)).sum := by
    clear hc e h
    induction cs with
    | nil => simp
    | cons g cs ih =>
      rw [List.count_cons, List.map_cons, List.sum_cons]
      split_ifs with hg
      · have hg : g = f := by simpa using hg
        subst hg
        have : 0 < List.count g (registers g) := List.count_pos_iff.2 hr
        simp only [Function.comp] at ih ⊢
        omega
      · omega
  omega

/-- With functions that register none, the calling is that of the other theorems. -/
theorem C53_none_registered (fs : List ℕ) (n : ℕ) (hn : fs.length ≤ n) (h : ∀ f ∈ fs, raises f = false) :
    runDownWith (fun _ => []) n fs = (fs, []) ∧ runDown raises fs = (fs, [], false) := by
  refine ⟨?_, runDown_none raises fs h⟩
  induction n generalizing fs with
  | zero => cases fs with
    | nil => rfl
    | cons f fs => simp at hn
  | succ n ih =>
    cases fs with
    | nil => rfl
    | cons f fs =>
      have := ih fs (by simpa using hn) fun g hg => h g (List.mem_cons_of_mem _ hg)
      simp [runDownWith, this]

example : (runDownWith (fun f => if f = 1 then [4, 2] else []) 10 [1, 3]) = ([1, 3, 4, 2], []) := by decide
example := C53_ends (fun f => if f = 1 then [0] else []) id (by
  intro f g hg
  split_ifs at hg with h
  · simp_all
  · simp at hg) [1, 0, 1]
example := C53_never_ends (fun f => [f]) 1 [1] (by simp) (by simp) 7
example := C53_none_registered (fun _ => false) [3, 5] 2 le_rfl (by simp)

end Abort
end Ade
