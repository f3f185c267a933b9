import Mathlib.Data.List.Basic
import Verif.Model.EnterKey

/-!
# Property C144: the Enter key stops everything
-/

set_option autoImplicit false

namespace Ade
namespace EnterKey

/-- Has the registered function had its effect? -/
def Done (w : World) (f : ℕ) : Prop :=
  if f % 2 = 0 then (w.pops (f / 2)).running = some false else (w.des (f / 2)).running = false

/-- Is it a function of an object that was made (and not loaded)? -/
def Made (w : World) (f : ℕ) : Prop :=
  if f % 2 = 0 then f / 2 < w.nPops ∧ (w.pops (f / 2)).loaded = false else f / 2 < w.nDEs

theorem done_abortOf (w : World) (p : ℕ) : Done w (abortOf p) ↔ (w.pops p).running = some false := by
  unfold Done abortOf
  rw [if_pos (by omega), show 2 * p / 2 = p by omega]

theorem done_shutdownOf (w : World) (d : ℕ) : Done w (shutdownOf d) ↔ (w.des d).running = false := by
  unfold Done shutdownOf
  rw [if_neg (by omega), show (2 * d + 1) / 2 = d by omega]

theorem made_abortOf (w : World) (p : ℕ) : Made w (abortOf p) ↔ p < w.nPops ∧ (w.pops p).loaded = false := by
  unfold Made abortOf
  rw [if_pos (by omega), show 2 * p / 2 = p by omega]

theorem made_shutdownOf (w : World) (d : ℕ) : Made w (shutdownOf d) ↔ d < w.nDEs := by
  unfold Made shutdownOf
  rw [if_neg (by omega), show (2 * d + 1) / 2 = d by omega]

theorem apply_done (w : World) (g f : ℕ) : Done (apply w g) f ↔ Done w f ∨ f = g := by
  unfold Done apply
  by_cases hg : g % 2 = 0
  · rw [if_pos hg]
    by_cases hf : f % 2 = 0
    · rw [if_pos hf, if_pos hf]
      dsimp only [abortPop]
      by_cases he : f / 2 = g / 2
      · have : f = g := by omega
        subst this; simp
      · rw [Function.update_of_ne he]
        have : f ≠ g := fun h => he (by rw [h])
        simp [this]
    · rw [if_neg hf, if_neg hf]
      have : f ≠ g := fun h => hf (by rw [h]; exact hg)
      simp [abortPop, this]
  · rw [if_neg hg]
    by_cases hf : f % 2 = 0
    · rw [if_pos hf, if_pos hf]
      have : f ≠ g := fun h => hg (by rw [← h]; exact hf)
      simp [shutdownDE, this]
    · rw [if_neg hf, if_neg hf]
      dsimp only [shutdownDE]
      by_cases he : f / 2 = g / 2
      · have : f = g := by omega
        subst this; simp
      · rw [Function.update_of_ne he]
        have : f ≠ g := fun h => he (by rw [h])
        simp [this]

/-- What calling registered functions leaves alone. -/
structure Kept (w w' : World) : Prop where
  kb : w'.kb = w.kb
  nPops : w'.nPops = w.nPops
  nDEs : w'.nDEs = w.nDEs
  out : w'.out = w.out
  loaded : ∀ p, (w'.pops p).loaded = (w.pops p).loaded
  pop : ∀ d, (w'.des d).pop = (w.des d).pop

theorem apply_kept (w : World) (g : ℕ) : Kept w (apply w g) := by
  unfold apply
  split
  · refine ⟨rfl, rfl, rfl, rfl, fun p => ?_, fun _ => rfl⟩
    dsimp only [abortPop]
    by_cases he : p = g / 2
    · subst he; simp
    · rw [Function.update_of_ne he]
  · refine ⟨rfl, rfl, rfl, rfl, fun _ => rfl, fun d => ?_⟩
    dsimp only [shutdownDE]
    by_cases he : d = g / 2
    · subst he; simp
    · rw [Function.update_of_ne he]

theorem foldl_kept (fs : List ℕ) : ∀ w, Kept w (fs.foldl apply w) := by
  induction fs with
  | nil => intro w; exact ⟨rfl, rfl, rfl, rfl, fun _ => rfl, fun _ => rfl⟩
  | cons g fs ih =>
    intro w
    have h1 := apply_kept w g
    have h2 := ih (apply w g)
    exact ⟨h2.kb.trans h1.kb, h2.nPops.trans h1.nPops, h2.nDEs.trans h1.nDEs, h2.out.trans h1.out,
      fun p => (h2.loaded p).trans (h1.loaded p), fun d => (h2.pop d).trans (h1.pop d)⟩

theorem foldl_done (fs : List ℕ) (f : ℕ) : ∀ w, Done (fs.foldl apply w) f ↔ Done w f ∨ f ∈ fs := by
  induction fs with
  | nil => intro w; simp
  | cons g fs ih =>
    intro w
    rw [List.foldl_cons, ih, apply_done, List.mem_cons, or_assoc]

theorem made_kept {w w' : World} (h : Kept w w') (f : ℕ) : Made w' f ↔ Made w f := by
  unfold Made
  rw [h.nPops, h.nDEs, h.loaded]

/-- The functions called by an event at the keyboard. -/
def calls (k : Abort.St) : Abort.Event → List ℕ
  | .press => if k.ignoreAll then [] else k.callbacks
  | .turn =>
    match k.later with
    | [] => []
    | .func f :: _ => [f]
    | .press :: _ => if k.ignoreAll then [] else k.callbacks
  | _ => []

theorem runDown_all (fs : List ℕ) : Abort.runDown (fun _ => false) fs = (fs, [], false) := by
  induction fs with
  | nil => rfl
  | cons f fs ih => simp [Abort.runDown, ih]

theorem dataReceived_eq (k : Abort.St) : Abort.dataReceived (fun _ => false) k =
    if k.ignoreAll then k else { k with callbacks := [], called := k.called ++ k.callbacks, alive := false } := by
  unfold Abort.dataReceived
  split
  · rfl
  · simp [runDown_all, Abort.shutdown]

theorem keyboard_eq (w : World) (e : Abort.Event) :
    keyboard w e = (calls w.kb e).foldl apply { w with kb := Abort.step (fun _ => false) w.kb e } := by
  unfold keyboard
  dsimp only
  congr 1
  cases e with
  | register f c =>
    simp only [Abort.step, Abort.callOnAbort, calls]
    split <;> [skip; split] <;> simp
  | press =>
    simp only [Abort.step, dataReceived_eq, calls]
    split <;> simp
  | turn =>
    simp only [Abort.step, calls]
    generalize hl : w.kb.later = l
    cases l with
    | nil => simp
    | cons t l =>
      cases t with
      | func f => simp
      | press =>
        simp only [dataReceived_eq]
        split <;> simp
  | abortNow => simp [Abort.step, calls]
  | shutdown => simp [Abort.step, calls, Abort.shutdown]
  | restart => simp [Abort.step, calls]
  | ignore => simp [Abort.step, calls]

/-- Each function of an object made has had its effect or is still waiting to be called. -/
def Waits (w : World) : Prop :=
  ∀ f, Made w f → Done w f ∨ f ∈ w.kb.callbacks ∨ Abort.Task.func f ∈ w.kb.later

/-- The keyboard has run down its functions. -/
def Over (k : Abort.St) : Prop := k.callbacks = [] ∧ k.alive = false

theorem keyboard_waits {w : World} (h : Waits w) {e : Abort.Event} (he : e ≠ .restart) : Waits (keyboard w e) := by
  intro f hf
  rw [keyboard_eq] at hf ⊢
  rw [made_kept (foldl_kept _ _)] at hf
  rw [foldl_done, (foldl_kept _ _).kb]
  have h0 : Done { w with kb := Abort.step (fun _ => false) w.kb e } f ↔ Done w f := Iff.rfl
  rw [h0]
  dsimp only
  rcases h f hf with h1 | h1 | h1
  · exact .inl (.inl h1)
  · cases e with
    | register g c =>
      right; left
      simp only [Abort.step, Abort.callOnAbort]
      split <;> [skip; split] <;> simp [h1]
    | press =>
      simp only [Abort.step, dataReceived_eq, calls]
      split <;> simp [h1]
    | turn =>
      simp only [Abort.step, calls]
      generalize hl : w.kb.later = l
      cases l with
      | nil => exact .inr (.inl h1)
      | cons t l =>
        cases t with
        | func g => exact .inr (.inl h1)
        | press =>
          simp only [dataReceived_eq]
          split <;> simp [h1]
    | abortNow => exact .inr (.inl h1)
    | shutdown => exact .inr (.inl h1)
    | restart => exact absurd rfl he
    | ignore => exact .inr (.inl h1)
  · cases e with
    | register g c =>
      right; right
      simp only [Abort.step, Abort.callOnAbort]
      split <;> [skip; split] <;> simp [h1]
    | press =>
      right; right
      simp only [Abort.step, dataReceived_eq]
      split <;> simp [h1]
    | turn =>
      simp only [Abort.step, calls]
      generalize hl : w.kb.later = l at h1
      cases l with
      | nil => simp at h1
      | cons t l =>
        cases t with
        | func g =>
          rcases List.mem_cons.1 h1 with h2 | h2
          · injection h2 with h2; subst h2; exact .inl (.inr (by simp))
          · exact .inr (.inr h2)
        | press =>
          have h2 : Abort.Task.func f ∈ l := by
            rcases List.mem_cons.1 h1 with h2 | h2
            · cases h2
            · exact h2
          right; right
          simp only [dataReceived_eq]
          split <;> exact h2
    | abortNow => right; right; simp [Abort.step, h1]
    | shutdown => exact .inr (.inr h1)
    | restart => exact absurd rfl he
    | ignore => exact .inr (.inr h1)

/-- Registering puts the function where it waits. -/
theorem register_waits (w : World) (f : ℕ) :
    f ∈ (keyboard w (.register f true)).kb.callbacks ∨ Abort.Task.func f ∈ (keyboard w (.register f true)).kb.later := by
  rw [keyboard_eq, (foldl_kept _ _).kb]
  simp only [Abort.step, Abort.callOnAbort]
  split <;> [skip; split] <;> simp_all

theorem register_kb (w : World) (f : ℕ) : keyboard w (.register f true) =
    { w with kb := Abort.step (fun _ => false) w.kb (.register f true) } := by
  rw [keyboard_eq]; rfl

theorem step_waits {w : World} (h : Waits w) {e : Event} (h1 : e ≠ .restart) (h2 : ∀ p, e ≠ .clear p) :
    Waits (step w e) := by
  -- events that change one population without stopping fewer
  have popCase : ∀ (w' : World) (p : ℕ), w'.kb = w.kb → w'.nPops = w.nPops → w'.nDEs = w.nDEs → w'.des = w.des →
      (∀ q, (w'.pops q).loaded = (w.pops q).loaded) → (∀ q, q ≠ p → w'.pops q = w.pops q) →
      ((w.pops p).running = some false → (w'.pops p).running = some false) → Waits w' := by
    intro w' p e1 e2 e3 e4 e5 e6 e7 f hf
    have hf' : Made w f := by
      unfold Made at hf ⊢
      rw [e2, e3, e5] at hf; exact hf
    rw [e1]
    rcases h f hf' with h3 | h3
    · left
      unfold Done at h3 ⊢
      rw [e4]
      split
      · rename_i hp
        rw [if_pos hp] at h3
        by_cases hq : f / 2 = p
        · rw [hq] at h3 ⊢; exact e7 h3
        · rw [e6 _ hq]; exact h3
      · rename_i hp
        rw [if_neg hp] at h3; exact h3
    · exact .inr h3
  cases e with
  | newPop =>
    intro f hf
    by_cases hfn : f = abortOf w.nPops
    · subst hfn; right; exact register_waits _ _
    · simp only [step] at hf ⊢
      rw [register_kb] at hf
      have hm : Made w f := by
        unfold Made at hf ⊢
        split
        · rename_i hp
          rw [if_pos hp] at hf
          dsimp only at hf
          have hne : f / 2 ≠ w.nPops := by unfold abortOf at hfn; omega
          rw [Function.update_of_ne hne] at hf
          exact ⟨by omega, hf.2⟩
        · rename_i hp
          rw [if_neg hp] at hf; exact hf
      have hd : Done { w with pops := Function.update w.pops w.nPops ⟨false, none⟩, nPops := w.nPops + 1 } f ↔ Done w f := by
        unfold Done
        split
        · have hne : f / 2 ≠ w.nPops := by unfold abortOf at hfn; omega
          dsimp only
          rw [Function.update_of_ne hne]
        · rfl
      rw [register_kb]
      rcases h f hm with h3 | h3 | h3
      · exact .inl (hd.2 h3)
      · right; left
        simp only [Abort.step, Abort.callOnAbort]
        split <;> [skip; split] <;> simp [h3]
      · right; right
        simp only [Abort.step, Abort.callOnAbort]
        split <;> [skip; split] <;> simp [h3]
  | loadPop saved =>
    intro f hf
    simp only [step] at hf ⊢
    have hm : Made w f ∧ (f % 2 = 0 → f / 2 ≠ w.nPops) := by
      unfold Made at hf ⊢
      split
      · rename_i hp
        rw [if_pos hp] at hf
        dsimp only at hf
        have hne : f / 2 ≠ w.nPops := by
          intro hq
          rw [hq, Function.update_self] at hf
          exact absurd hf.2 (by simp)
        rw [Function.update_of_ne hne] at hf
        exact ⟨⟨by omega, hf.2⟩, fun _ => hne⟩
      · rename_i hp
        rw [if_neg hp] at hf; exact ⟨hf, fun h' => absurd h' hp⟩
    rcases h f hm.1 with h3 | h3
    · left
      unfold Done at h3 ⊢
      split
      · rename_i hp
        rw [if_pos hp] at h3
        dsimp only
        rw [Function.update_of_ne (hm.2 hp)]; exact h3
      · rename_i hp
        rw [if_neg hp] at h3; exact h3
    · exact .inr h3
  | setup p =>
    simp only [step]
    split
    · exact popCase _ p rfl rfl rfl rfl (fun _ => rfl) (fun _ _ => rfl) id
    · rename_i hr
      refine popCase _ p rfl rfl rfl rfl (fun q => ?_) (fun q hq => Function.update_of_ne hq _ _) fun h' => absurd h' hr
      dsimp only
      by_cases hq : q = p
      · subst hq; simp
      · rw [Function.update_of_ne hq]
  | setupDone p =>
    simp only [step]
    split
    · exact h
    · rename_i hr
      refine popCase _ p rfl rfl rfl rfl (fun q => ?_) (fun q hq => Function.update_of_ne hq _ _) fun h' => absurd h' hr
      dsimp only
      by_cases hq : q = p
      · subst hq; simp
      · rw [Function.update_of_ne hq]
  | clear p => exact absurd rfl (h2 p)
  | evaluate p => exact popCase _ p rfl rfl rfl rfl (fun _ => rfl) (fun _ _ => rfl) id
  | abortPop p =>
    simp only [step, abortPop]
    refine popCase _ p rfl rfl rfl rfl (fun q => ?_) (fun q hq => Function.update_of_ne hq _ _) fun _ => ?_
    · dsimp only
      by_cases hq : q = p
      · subst hq; simp
      · rw [Function.update_of_ne hq]
    · dsimp only; rw [Function.update_self]
  | newDE p =>
    intro f hf
    by_cases hfn : f = shutdownOf w.nDEs
    · subst hfn; right; exact register_waits _ _
    · simp only [step] at hf ⊢
      rw [register_kb] at hf
      have hm : Made w f := by
        unfold Made at hf ⊢
        split
        · rename_i hp
          rw [if_pos hp] at hf; exact hf
        · rename_i hp
          rw [if_neg hp] at hf
          dsimp only at hf
          have hne : f / 2 ≠ w.nDEs := by unfold shutdownOf at hfn; omega
          omega
      have hd : Done { w with des := Function.update w.des w.nDEs ⟨p, true⟩, nDEs := w.nDEs + 1 } f ↔ Done w f := by
        unfold Done
        split
        · rfl
        · have hne : f / 2 ≠ w.nDEs := by unfold shutdownOf at hfn; omega
          dsimp only
          rw [Function.update_of_ne hne]
      rw [register_kb]
      rcases h f hm with h3 | h3 | h3
      · exact .inl (hd.2 h3)
      · right; left
        simp only [Abort.step, Abort.callOnAbort]
        split <;> [skip; split] <;> simp [h3]
      · right; right
        simp only [Abort.step, Abort.callOnAbort]
        split <;> [skip; split] <;> simp [h3]
  | call d => exact popCase _ 0 rfl rfl rfl rfl (fun _ => rfl) (fun _ _ => rfl) id
  | shutdownDE d =>
    intro f hf
    have hm : Made w f := hf
    rcases h f hm with h3 | h3
    · left
      simp only [step, shutdownDE]
      unfold Done at h3 ⊢
      split
      · rename_i hp
        rw [if_pos hp] at h3; exact h3
      · rename_i hp
        rw [if_neg hp] at h3
        dsimp only
        by_cases hq : f / 2 = d
        · rw [hq, Function.update_self]
        · rw [Function.update_of_ne hq]; exact h3
    · exact .inr h3
  | press => exact keyboard_waits h (by simp)
  | abortNow => exact keyboard_waits h (by simp)
  | turn => exact keyboard_waits h (by simp)
  | keyboardShutdown => exact keyboard_waits h (by simp)
  | restart => exact absurd rfl h1
  | ignore => exact keyboard_waits h (by simp)

theorem start_waits : Waits start := by
  intro f hf
  unfold Made at hf
  split at hf
  · exact absurd hf.1 (by simp [start])
  · exact absurd hf (by simp [start])

/-- The event at the keyboard that an event is or leads to. -/
def toKey (w : World) : Event → Option Abort.Event
  | .newPop => some (.register (abortOf w.nPops) true)
  | .newDE _ => some (.register (shutdownOf w.nDEs) true)
  | .press => some .press
  | .abortNow => some .abortNow
  | .turn => some .turn
  | .keyboardShutdown => some .shutdown
  | .restart => some .restart
  | .ignore => some .ignore
  | _ => none

theorem keyboard_kb (w : World) (k : Abort.Event) : (keyboard w k).kb = Abort.step (fun _ => false) w.kb k := by
  rw [keyboard_eq, (foldl_kept _ _).kb]

theorem step_none (w : World) {e : Event} (h : toKey w e = none) : (step w e).kb = w.kb := by
  cases e with
  | setup p => simp only [step]; split <;> rfl
  | setupDone p => simp only [step]; split <;> rfl
  | loadPop _ => rfl
  | clear _ => rfl
  | evaluate _ => rfl
  | abortPop _ => rfl
  | call _ => rfl
  | shutdownDE _ => rfl
  | _ => cases h

theorem step_some (w : World) {e : Event} {k : Abort.Event} (h : toKey w e = some k) :
    (step w e).kb = Abort.step (fun _ => false) w.kb k := by
  cases e <;> simp [toKey] at h <;> subst h <;> exact keyboard_kb _ _

theorem toKey_restart {w : World} {e : Event} (h : toKey w e = some .restart) : e = .restart := by
  cases e <;> simp [toKey] at h ⊢

theorem toKey_ignore {w : World} {e : Event} (h : toKey w e = some .ignore) : e = .ignore := by
  cases e <;> simp [toKey] at h ⊢

theorem over_step {k : Abort.St} (h : Over k) {e : Abort.Event} (he : e ≠ .restart) :
    Over (Abort.step (fun _ => false) k e) := by
  obtain ⟨h1, h2⟩ := h
  cases e with
  | register f c =>
    simp only [Abort.step, Abort.callOnAbort, h2]
    split <;> exact ⟨h1, by first | exact h2 | rfl⟩
  | press =>
    simp only [Abort.step, dataReceived_eq]
    split
    · exact ⟨h1, h2⟩
    · exact ⟨rfl, rfl⟩
  | turn =>
    simp only [Abort.step]
    split
    · exact ⟨h1, h2⟩
    · exact ⟨h1, h2⟩
    · simp only [dataReceived_eq]
      split
      · exact ⟨h1, h2⟩
      · exact ⟨rfl, rfl⟩
  | abortNow => exact ⟨h1, h2⟩
  | shutdown => exact ⟨h1, rfl⟩
  | restart => exact absurd rfl he
  | ignore => exact ⟨h1, h2⟩

/-- The invariant of a program that does not ignore the keyboard, nor starts over: once asked to stop, the keyboard has run
down its functions or will when the reactor makes the waiting calls. -/
def Asked (k : Abort.St) : Prop := Over k ∨ Abort.Task.press ∈ k.later

theorem notIgnoring_step {k : Abort.St} (h : k.ignoreAll = false) {e : Abort.Event} (he : e ≠ .ignore) :
    (Abort.step (fun _ => false) k e).ignoreAll = false := by
  cases e with
  | register f c =>
    simp only [Abort.step, Abort.callOnAbort]
    split <;> [skip; split] <;> exact h
  | press =>
    simp only [Abort.step, dataReceived_eq]
    split <;> exact h
  | turn =>
    simp only [Abort.step]
    split
    · exact h
    · exact h
    · simp only [dataReceived_eq]
      split <;> exact h
  | abortNow => exact h
  | shutdown => exact h
  | restart => rfl
  | ignore => exact absurd rfl he

theorem asked_step {k : Abort.St} (h : Asked k) (hi : k.ignoreAll = false) {e : Abort.Event} (he : e ≠ .restart) :
    Asked (Abort.step (fun _ => false) k e) := by
  rcases h with h | h
  · exact .inl (over_step h he)
  · cases e with
    | register f c =>
      right
      simp only [Abort.step, Abort.callOnAbort]
      split <;> [skip; split] <;> simp [h]
    | press =>
      left
      simp only [Abort.step, dataReceived_eq, hi]
      exact ⟨rfl, rfl⟩
    | turn =>
      simp only [Abort.step]
      split
      · exact .inr h
      · rename_i f rest hl
        rw [hl] at h
        right
        rcases List.mem_cons.1 h with h' | h'
        · cases h'
        · exact h'
      · left
        simp only [dataReceived_eq, hi]
        exact ⟨rfl, rfl⟩
    | abortNow => right; simp [Abort.step, h]
    | shutdown => exact .inr h
    | restart => exact absurd rfl he
    | ignore => exact .inr h

/-- A program that neither starts over with a new keyboard, nor disables it, nor wipes out a population. -/
def Plain (es : List Event) : Prop := Event.restart ∉ es ∧ Event.ignore ∉ es ∧ ∀ p, Event.clear p ∉ es

theorem run_concat (w : World) (es : List Event) (e : Event) : run w (es ++ [e]) = step (run w es) e := by
  simp [run]

theorem plain_inv (es : List Event) : ∀ w, Plain es → Waits w → w.kb.ignoreAll = false →
    Waits (run w es) ∧ (run w es).kb.ignoreAll = false ∧
      (Asked w.kb ∨ Event.press ∈ es ∨ Event.abortNow ∈ es → Asked (run w es).kb) := by
  induction es with
  | nil => intro w _ h hi; exact ⟨h, hi, fun h => by rcases h with h | h | h <;> [exact h; cases h; cases h]⟩
  | cons e es ih =>
    intro w hp h hi
    obtain ⟨h1, h2, h3⟩ := hp
    have hr : e ≠ .restart := fun h => h1 (by simp [h])
    have hg : e ≠ .ignore := fun h => h2 (by simp [h])
    have hk : (step w e).kb.ignoreAll = false := by
      cases hk : toKey w e with
      | none => rw [step_none w hk]; exact hi
      | some k =>
        rw [step_some w hk]
        exact notIgnoring_step hi (by rintro rfl; exact hg (toKey_ignore hk))
    obtain ⟨i1, i2, i3⟩ := ih (step w e) ⟨fun h => h1 (List.mem_cons_of_mem _ h), fun h => h2 (List.mem_cons_of_mem _ h),
      fun p h => h3 p (List.mem_cons_of_mem _ h)⟩
      (step_waits h hr fun p h => h3 p (by simp [h])) hk
    refine ⟨i1, i2, fun ha => i3 ?_⟩
    have hstep : Asked w.kb → Asked (step w e).kb := by
      intro ha
      cases hk : toKey w e with
      | none => rw [step_none w hk]; exact ha
      | some k =>
        rw [step_some w hk]
        exact asked_step ha hi (by rintro rfl; exact hr (toKey_restart hk))
    rcases ha with ha | ha | ha
    · exact .inl (hstep ha)
    · rcases List.mem_cons.1 ha with rfl | ha
      · left; left
        simp only [step]
        rw [keyboard_eq, (foldl_kept _ _).kb]
        simp only [Abort.step, dataReceived_eq, hi]
        exact ⟨rfl, rfl⟩
      · exact .inr (.inl ha)
    · rcases List.mem_cons.1 ha with rfl | ha
      · left; right
        simp only [step]
        rw [keyboard_eq, (foldl_kept _ _).kb]
        simp [Abort.step]
      · exact .inr (.inr ha)

/-- C144: once the Enter key has been pressed (or `abortNow` called), everything is stopped as soon as the reactor has
made the calls that wait for it, also what was made since: evaluations of each population made are given `None`
instead of values, its setup is refused, and calls of objects for differential evolution lead to no challenges.
(What is missing are loaded populations, see `C144_loaded_not_aborted`.) -/
theorem C144_enter_stops_partial (es : List Event) (hp : Plain es) (hpress : Event.press ∈ es ∨ Event.abortNow ∈ es)
    (hl : (run start es).kb.later = []) :
    (∀ p, p < (run start es).nPops → ((run start es).pops p).loaded = false →
      (run start (es ++ [.evaluate p])).out = (run start es).out ++ [.evaluated p false] ∧
      (run start (es ++ [.setup p])).out = (run start es).out ++ [.setup p false]) ∧
    ∀ d, d < (run start es).nDEs →
      (run start (es ++ [.call d])).out = (run start es).out ++ [.called d false] := by
  obtain ⟨h1, _, h3⟩ := plain_inv es start hp start_waits rfl
  have ho : Over (run start es).kb := by
    rcases h3 (.inr hpress) with h | h
    · exact h
    · rw [hl] at h; cases h
  have hd : ∀ f, Made (run start es) f → Done (run start es) f := by
    intro f hf
    rcases h1 f hf with h | h | h
    · exact h
    · rw [ho.1] at h; cases h
    · rw [hl] at h; cases h
  refine ⟨fun p hpn hpl => ?_, fun d hdn => ?_⟩
  · have hr := (done_abortOf _ p).1 (hd _ ((made_abortOf _ p).2 ⟨hpn, hpl⟩))
    rw [run_concat, run_concat]
    simp [step, hr]
  · have hr := (done_shutdownOf _ d).1 (hd _ ((made_shutdownOf _ d).2 hdn))
    rw [run_concat]
    simp [step, hr]

/-- A program with two populations, one of them loaded, and a run of each, when the Enter key is pressed; then another run
is made, which is stopped by the reactor. -/
def demo : List Event := [.newPop, .setup 0, .setupDone 0, .newDE 0, .call 0, .loadPop (some true), .newDE 1, .call 1,
  .press, .newDE 0, .turn]

example := C144_enter_stops_partial demo (by refine ⟨by decide, by decide, fun p => ?_⟩; simp [demo]) (by decide)
  (by decide +kernel)

example : (run start demo).nPops = 2 ∧ (run start demo).nDEs = 3 ∧ ((run start demo).pops 0).loaded = false := by
  decide +kernel

/-- The function waits nowhere. -/
def Absent (k : Abort.St) (f : ℕ) : Prop := f ∉ k.callbacks ∧ Abort.Task.func f ∉ k.later

/-- The object of the function exists, loaded or not. -/
def Known (w : World) (f : ℕ) : Prop := if f % 2 = 0 then f / 2 < w.nPops else f / 2 < w.nDEs

theorem known_abortOf (w : World) (p : ℕ) : Known w (abortOf p) ↔ p < w.nPops := by
  unfold Known abortOf
  rw [if_pos (by omega), show 2 * p / 2 = p by omega]

theorem known_shutdownOf (w : World) (d : ℕ) : Known w (shutdownOf d) ↔ d < w.nDEs := by
  unfold Known shutdownOf
  rw [if_neg (by omega), show (2 * d + 1) / 2 = d by omega]

theorem absent_step {k : Abort.St} {f : ℕ} (h : Absent k f) {e : Abort.Event} (he : ∀ c, e ≠ .register f c) :
    Absent (Abort.step (fun _ => false) k e) f ∧ f ∉ calls k e := by
  obtain ⟨h1, h2⟩ := h
  cases e with
  | register g c =>
    have hne : f ≠ g := by rintro rfl; exact he c rfl
    refine ⟨?_, by simp [calls]⟩
    simp only [Abort.step, Abort.callOnAbort]
    split <;> [skip; split] <;> simp [Absent, h1, h2, hne]
  | press =>
    simp only [Abort.step, dataReceived_eq, calls]
    split <;> simp [Absent, h1, h2]
  | turn =>
    simp only [Abort.step, calls]
    generalize hl : k.later = l at h2
    cases l with
    | nil => exact ⟨⟨h1, by rw [hl]; exact h2⟩, by simp⟩
    | cons t l =>
      have h3 : Abort.Task.func f ∉ l := fun h => h2 (List.mem_cons_of_mem _ h)
      cases t with
      | func g =>
        have hne : f ≠ g := by rintro rfl; exact h2 (by simp)
        exact ⟨⟨h1, h3⟩, by simpa using hne⟩
      | press =>
        simp only [dataReceived_eq]
        split <;> simp [Absent, h1, h3]
  | abortNow => exact ⟨⟨h1, by simp [Abort.step, h2]⟩, by simp [calls]⟩
  | shutdown => exact ⟨⟨h1, h2⟩, by simp [calls]⟩
  | restart => exact ⟨⟨by simp [Abort.step], h2⟩, by simp [calls]⟩
  | ignore => exact ⟨⟨h1, h2⟩, by simp [calls]⟩

theorem known_step {w : World} {f : ℕ} (h : Known w f) (e : Event) : Known (step w e) f := by
  have up : ∀ w' : World, w.nPops ≤ w'.nPops → w.nDEs ≤ w'.nDEs → Known w' f := by
    intro w' h1 h2
    unfold Known at h ⊢
    split <;> rename_i hf
    · rw [if_pos hf] at h; omega
    · rw [if_neg hf] at h; omega
  have kn : ∀ (w : World) k, (keyboard w k).nPops = w.nPops := fun w k => by rw [keyboard_eq, (foldl_kept _ _).nPops]
  have kd : ∀ (w : World) k, (keyboard w k).nDEs = w.nDEs := fun w k => by rw [keyboard_eq, (foldl_kept _ _).nDEs]
  apply up
  · cases e with
    | setup q => simp only [step]; split <;> simp
    | setupDone q => simp only [step]; split <;> simp
    | _ => simp [step, kn, abortPop, shutdownDE]
  · cases e with
    | setup q => simp only [step]; split <;> simp
    | setupDone q => simp only [step]; split <;> simp
    | _ => simp [step, kd, abortPop, shutdownDE]

/-- An event other than stopping the object itself: a function that waits nowhere is not called. -/
theorem untouched_step {w : World} {f : ℕ} (hx : Known w f) (ha : Absent w.kb f) (hn : ¬ Done w f) {e : Event}
    (h1 : ∀ p, f = abortOf p → e ≠ .abortPop p) (h2 : ∀ d, f = shutdownOf d → e ≠ .shutdownDE d) :
    Known (step w e) f ∧ Absent (step w e).kb f ∧ ¬ Done (step w e) f := by
  have hreg : ∀ k, toKey w e = some k → ∀ c, k ≠ .register f c := by
    rintro k hk c rfl
    unfold Known at hx
    cases e with
    | newPop =>
      simp only [toKey, Option.some.injEq, Abort.Event.register.injEq, abortOf] at hk
      rw [if_pos (by omega)] at hx
      omega
    | newDE p =>
      simp only [toKey, Option.some.injEq, Abort.Event.register.injEq, shutdownOf] at hk
      rw [if_neg (by omega)] at hx
      omega
    | _ => simp [toKey] at hk
  have key : ∀ (w' : World) k, w'.kb = w.kb → toKey w e = some k → ¬ Done w' f → ¬ Done (keyboard w' k) f := by
    intro w' k hw hk hd
    rw [keyboard_eq, foldl_done]
    rintro (h | h)
    · exact hd h
    · rw [hw] at h; exact (absent_step ha (hreg k hk)).2 h
  refine ⟨known_step hx e, ?_, ?_⟩
  · cases hk : toKey w e with
    | none => rw [step_none w hk]; exact ha
    | some k => rw [step_some w hk]; exact (absent_step ha (hreg k hk)).1
  · -- changing one population
    have upd : ∀ (w' : World) (q : ℕ), w'.des = w.des → (∀ p, p ≠ q → w'.pops p = w.pops p) →
        (f = abortOf q → (w'.pops q).running ≠ some false) → ¬ Done w' f := by
      intro w' q hdes hpops hq hd
      unfold Done at hd hn
      by_cases hf : f % 2 = 0
      · rw [if_pos hf] at hd hn
        by_cases hfq : f / 2 = q
        · rw [hfq] at hd; exact hq (by unfold abortOf; omega) hd
        · rw [hpops _ hfq] at hd; exact hn hd
      · rw [if_neg hf] at hd hn
        rw [hdes] at hd; exact hn hd
    cases e with
    | newPop =>
      refine key _ _ rfl rfl (upd _ w.nPops rfl (fun p hp => ?_) fun _ => ?_)
      · dsimp only; rw [Function.update_of_ne hp]
      · dsimp only; rw [Function.update_self]; simp
    | loadPop saved =>
      refine upd _ w.nPops rfl (fun p hp => ?_) fun _ => ?_
      · simp only [step]; rw [Function.update_of_ne hp]
      · simp only [step]; rw [Function.update_self]; dsimp only; split
        · simp
        · assumption
    | setup q =>
      simp only [step]
      split
      · exact hn
      · refine upd _ q rfl (fun p hp => ?_) fun _ => ?_
        · dsimp only; rw [Function.update_of_ne hp]
        · dsimp only; rw [Function.update_self]; simp
    | setupDone q =>
      simp only [step]
      split
      · exact hn
      · refine upd _ q rfl (fun p hp => ?_) fun _ => ?_
        · dsimp only; rw [Function.update_of_ne hp]
        · dsimp only; rw [Function.update_self]; simp
    | clear q =>
      refine upd _ q rfl (fun p hp => ?_) fun _ => ?_
      · simp only [step]; rw [Function.update_of_ne hp]
      · simp only [step]; rw [Function.update_self]; simp
    | evaluate q => exact hn
    | abortPop q =>
      refine upd _ q rfl (fun p hp => ?_) fun h => absurd rfl (h1 q h)
      simp only [step, abortPop]; rw [Function.update_of_ne hp]
    | newDE q =>
      refine key _ _ rfl rfl ?_
      intro hd
      unfold Done at hd hn
      unfold Known at hx
      by_cases hf : f % 2 = 0
      · rw [if_pos hf] at hd hn; exact hn hd
      · rw [if_neg hf] at hd hn hx
        dsimp only at hd
        rw [Function.update_of_ne (by omega)] at hd; exact hn hd
    | call d => exact hn
    | shutdownDE d =>
      intro hd
      unfold Done at hd hn
      by_cases hf : f % 2 = 0
      · rw [if_pos hf] at hd hn; exact hn hd
      · rw [if_neg hf] at hd hn
        simp only [step, shutdownDE] at hd
        by_cases hfd : f / 2 = d
        · exact absurd rfl (h2 d (by unfold shutdownOf; omega))
        · rw [Function.update_of_ne hfd] at hd; exact hn hd
    | press => exact key w _ rfl rfl hn
    | abortNow => exact key w _ rfl rfl hn
    | turn => exact key w _ rfl rfl hn
    | keyboardShutdown => exact key w _ rfl rfl hn
    | restart => exact key w _ rfl rfl hn
    | ignore => exact key w _ rfl rfl hn

theorem untouched_run (f : ℕ) (es : List Event) : ∀ w, Known w f → Absent w.kb f → ¬ Done w f →
    (∀ p, f = abortOf p → Event.abortPop p ∉ es) → (∀ d, f = shutdownOf d → Event.shutdownDE d ∉ es) →
    ¬ Done (run w es) f := by
  induction es with
  | nil => intro w _ _ h _ _; exact h
  | cons e es ih =>
    intro w hx ha hn h1 h2
    obtain ⟨a, b, c⟩ := untouched_step hx ha hn (e := e) (fun p hp h => h1 p hp (by simp [h]))
      (fun d hd h => h2 d hd (by simp [h]))
    exact ih (step w e) a b c (fun p hp h => h1 p hp (List.mem_cons_of_mem _ h))
      (fun d hd h => h2 d hd (List.mem_cons_of_mem _ h))

/-- The functions waiting are of objects that exist. -/
theorem fresh_run (es : List Event) : ∀ w, (∀ f, ¬ Known w f → Absent w.kb f) →
    ∀ f, ¬ Known (run w es) f → Absent (run w es).kb f := by
  induction es with
  | nil => intro w h; exact h
  | cons e es ih =>
    intro w h
    refine ih (step w e) fun f hf => ?_
    have hx : ¬ Known w f := fun hx => hf (known_step hx e)
    cases hk : toKey w e with
    | none => rw [step_none w hk]; exact h f hx
    | some k =>
      rw [step_some w hk]
      refine (absent_step (h f hx) ?_).1
      rintro c rfl
      apply hf
      cases e with
      | newPop =>
        simp only [toKey, Option.some.injEq, Abort.Event.register.injEq] at hk
        rw [← hk.1, known_abortOf]
        simp only [step]; rw [register_kb]; simp
      | newDE p =>
        simp only [toKey, Option.some.injEq, Abort.Event.register.injEq] at hk
        rw [← hk.1, known_shutdownOf]
        simp only [step]; rw [register_kb]; simp
      | _ => simp [toKey] at hk

theorem start_fresh (f : ℕ) (_ : ¬ Known start f) : Absent start.kb f := by simp [Absent, start, Abort.start]

theorem run_append (w : World) (es es' : List Event) : run w (es ++ es') = run (run w es) es' := by simp [run]

/-- C144, what the code does not do: a loaded population is not aborted by the Enter key, whatever else happens in the
program (unless it is aborted for another reason): its evaluations go on being given values. The documentation of
`DifferentialEvolution.shutdown`, which is called, says that it aborts the population. -/
theorem C144_loaded_not_aborted (es es' : List Event) (saved : Option Bool)
    (h : Event.abortPop (run start es).nPops ∉ es') :
    let p := (run start es).nPops
    let w := run start (es ++ .loadPop saved :: es')
    (w.pops p).running ≠ some false ∧ (run w [.evaluate p]).out = w.out ++ [.evaluated p true] := by
  intro p w
  have hw : w = run (step (run start es) (.loadPop saved)) es' := by
    show run start (es ++ .loadPop saved :: es') = _
    rw [run_append]; rfl
  have ha : Absent (run start es).kb (abortOf p) := fresh_run es start start_fresh _ (by
    rw [known_abortOf]; exact Nat.lt_irrefl _)
  have hn : ¬ Done w (abortOf p) := by
    rw [hw]
    refine untouched_run _ es' _ ?_ ha ?_ ?_ ?_
    · rw [known_abortOf]; exact Nat.lt_succ_self _
    · rw [done_abortOf]
      show ((Function.update (run start es).pops p _) p).running ≠ _
      rw [Function.update_self]
      dsimp only
      split
      · simp
      · assumption
    · intro q hq
      have : q = p := by unfold abortOf at hq; omega
      rw [this]; exact h
    · intro d hd; unfold abortOf shutdownOf at hd; omega
  rw [done_abortOf] at hn
  refine ⟨hn, ?_⟩
  show w.out ++ [Obs.evaluated p ((w.pops p).running != some false)] = _
  rw [bne_iff_ne.2 hn]

example := C144_loaded_not_aborted [.newPop] [.newDE 1, .call 0, .press, .evaluate 1] (some true) (by decide +kernel)

/-- C144: the same in a program: after the Enter key the run of a loaded population is over, but the evaluation function is
still called with values, a setup is begun, and if the keyboard is restarted, so are challenges; nothing of that
happens with a population that was made. -/
theorem C144_loaded_goes_on :
    (run start [.loadPop (some true), .newDE 0, .call 0, .press, .evaluate 0, .restart, .newDE 0, .call 1]).out =
      [.called 0 true, .evaluated 0 true, .called 1 true] ∧
    (run start [.newPop, .setup 0, .setupDone 0, .newDE 0, .call 0, .press, .evaluate 0, .restart, .newDE 0, .call 1]).out =
      [.setup 0 true, .called 0 true, .evaluated 0 false, .called 1 false] := by
  decide +kernel

/-- C144: `restart` forgets what was registered: an object that was running before it (and does not wait for the reactor to
be stopped) is not stopped by the Enter key any more, and a population is not aborted any more. -/
theorem C144_restart_forgets (es es' : List Event) :
    (∀ d, d < (run start es).nDEs → ((run start es).des d).running = true →
      Abort.Task.func (shutdownOf d) ∉ (run start es).kb.later → Event.shutdownDE d ∉ es' →
      ((run start (es ++ .restart :: es')).des d).running = true) ∧
    (∀ p, p < (run start es).nPops → ((run start es).pops p).running ≠ some false →
      Abort.Task.func (abortOf p) ∉ (run start es).kb.later → Event.abortPop p ∉ es' →
      ((run start (es ++ .restart :: es')).pops p).running ≠ some false) := by
  have hw : run start (es ++ .restart :: es') = run (step (run start es) .restart) es' := by rw [run_append]; rfl
  have hk : (step (run start es) .restart).kb = Abort.step (fun _ => false) (run start es).kb .restart := keyboard_kb _ _
  have hs : step (run start es) .restart = { run start es with kb := Abort.step (fun _ => false) (run start es).kb .restart } := by
    show keyboard _ _ = _
    rw [keyboard_eq]; rfl
  rw [hw]
  refine ⟨fun d hd hr hl he => ?_, fun p hp hr hl he => ?_⟩
  · have hn : ¬ Done (run (step (run start es) .restart) es') (shutdownOf d) := by
      refine untouched_run _ es' _ (known_step ((known_shutdownOf _ d).2 hd) _) ?_ ?_ ?_ ?_
      · rw [hk]; exact ⟨by simp [Abort.step], hl⟩
      · rw [hs, done_shutdownOf]; dsimp only; rw [hr]; simp
      · intro q hq; unfold abortOf shutdownOf at hq; omega
      · intro d' hd'
        have : d' = d := by unfold shutdownOf at hd'; omega
        rw [this]; exact he
    rw [done_shutdownOf] at hn
    simpa using hn
  · have hn : ¬ Done (run (step (run start es) .restart) es') (abortOf p) := by
      refine untouched_run _ es' _ (known_step ((known_abortOf _ p).2 hp) _) ?_ ?_ ?_ ?_
      · rw [hk]; exact ⟨by simp [Abort.step], hl⟩
      · rw [hs, done_abortOf]; exact hr
      · intro q hq
        have : q = p := by unfold abortOf at hq; omega
        rw [this]; exact he
      · intro q hq; unfold abortOf shutdownOf at hq; omega
    rw [done_abortOf] at hn
    exact hn

example : ((run start [.newPop, .setup 0, .setupDone 0, .newDE 0, .call 0, .restart, .press]).des 0).running = true :=
  (C144_restart_forgets [.newPop, .setup 0, .setupDone 0, .newDE 0, .call 0] [.press]).1 0 (by decide +kernel)
    (by decide +kernel) (by decide +kernel) (by decide)

example : ((run start [.newPop, .setup 0, .setupDone 0, .newDE 0, .call 0, .restart, .press]).pops 0).running ≠ some false :=
  (C144_restart_forgets [.newPop, .setup 0, .setupDone 0, .newDE 0, .call 0] [.press]).2 0 (by decide +kernel)
    (by decide +kernel) (by decide +kernel) (by decide)

/-- The functions in the order in which their objects are made, after `n` populations and `m` objects for differential
evolution. -/
def inOrder : ℕ → ℕ → List Event → List ℕ
  | _, _, [] => []
  | n, m, .newPop :: es => abortOf n :: inOrder (n + 1) m es
  | n, m, .loadPop _ :: es => inOrder (n + 1) m es
  | n, m, .newDE _ :: es => shutdownOf m :: inOrder n (m + 1) es
  | n, m, _ :: es => inOrder n m es

/-- The functions that wait for the reactor. -/
def waiting (k : Abort.St) : List ℕ := k.later.filterMap fun
  | .func f => some f
  | .press => none

/-- All functions ever registered: those called, then those that wait. -/
def total (k : Abort.St) : List ℕ := k.called ++ k.callbacks ++ k.calledLater ++ waiting k

/-- A keyboard that lives has called nothing by the reactor; one that does not has no functions left. -/
def Sane (k : Abort.St) : Prop :=
  (k.alive = true → k.calledLater = [] ∧ waiting k = []) ∧ (k.alive = false → k.callbacks = [])

theorem sane_step {k : Abort.St} (h : Sane k) {e : Abort.Event} (h1 : e ≠ .restart) (h2 : e ≠ .shutdown) :
    Sane (Abort.step (fun _ => false) k e) ∧ total (Abort.step (fun _ => false) k e) =
      total k ++ (match e with | .register f true => [f] | _ => []) := by
  obtain ⟨cb, al, ig, la, ca, cl⟩ := k
  obtain ⟨s1, s2⟩ := h
  dsimp only at s1 s2
  cases e with
  | register f c =>
    cases c with
    | false => exact ⟨⟨s1, s2⟩, by simp [Abort.step, Abort.callOnAbort]⟩
    | true =>
      cases al with
      | true =>
        obtain ⟨a, b⟩ := s1 rfl
        dsimp only [waiting] at b
        subst a
        exact ⟨⟨fun _ => ⟨rfl, b⟩, fun h => by cases h⟩, by simp [Abort.step, Abort.callOnAbort, total, waiting, b]⟩
      | false =>
        have a := s2 rfl
        subst a
        exact ⟨⟨fun h => (by cases h), fun _ => rfl⟩, by simp [Abort.step, Abort.callOnAbort, total, waiting]⟩
  | press =>
    simp only [Abort.step, dataReceived_eq]
    cases ig with
    | true => exact ⟨⟨s1, s2⟩, by simp⟩
    | false => exact ⟨⟨fun h => (by cases h), fun _ => rfl⟩, by simp [total, waiting]⟩
  | abortNow =>
    refine ⟨⟨fun h => ⟨(s1 h).1, ?_⟩, s2⟩, by simp [Abort.step, total, waiting]⟩
    have := (s1 h).2
    simpa [Abort.step, waiting] using this
  | turn =>
    cases la with
    | nil => exact ⟨⟨s1, s2⟩, by simp [Abort.step]⟩
    | cons t la =>
      cases t with
      | func f =>
        cases al with
        | true => exact absurd (s1 rfl).2 (by simp [waiting])
        | false =>
          exact ⟨⟨fun h => (by cases h), fun _ => s2 rfl⟩, by simp [Abort.step, total, waiting]⟩
      | press =>
        simp only [Abort.step, dataReceived_eq]
        cases ig with
        | true =>
          refine ⟨⟨fun h => ⟨(s1 h).1, ?_⟩, s2⟩, by simp [total, waiting]⟩
          have := (s1 h).2
          simpa [waiting] using this
        | false => exact ⟨⟨fun h => (by cases h), fun _ => rfl⟩, by simp [total, waiting]⟩
  | shutdown => exact absurd rfl h2
  | restart => exact absurd rfl h1
  | ignore => exact ⟨⟨s1, s2⟩, by simp [Abort.step, total, waiting]⟩

theorem order_run (es : List Event) : ∀ w, Event.restart ∉ es → Event.keyboardShutdown ∉ es → Sane w.kb →
    Sane (run w es).kb ∧ total (run w es).kb = total w.kb ++ inOrder w.nPops w.nDEs es := by
  induction es with
  | nil => intro w _ _ h; exact ⟨h, by simp [run, inOrder]⟩
  | cons e es ih =>
    intro w h1 h2 h
    have r1 : Event.restart ∉ es := fun h => h1 (List.mem_cons_of_mem _ h)
    have r2 : Event.keyboardShutdown ∉ es := fun h => h2 (List.mem_cons_of_mem _ h)
    have e1 : e ≠ .restart := fun h => h1 (by simp [h])
    have e2 : e ≠ .keyboardShutdown := fun h => h2 (by simp [h])
    have kn : ∀ (w : World) k, (keyboard w k).nPops = w.nPops := fun w k => by rw [keyboard_eq, (foldl_kept _ _).nPops]
    have kd : ∀ (w : World) k, (keyboard w k).nDEs = w.nDEs := fun w k => by rw [keyboard_eq, (foldl_kept _ _).nDEs]
    have main : Sane (step w e).kb ∧ total w.kb ++ inOrder w.nPops w.nDEs (e :: es) =
        total (step w e).kb ++ inOrder (step w e).nPops (step w e).nDEs es := by
      cases hk : toKey w e with
      | none =>
        rw [step_none w hk]
        refine ⟨h, ?_⟩
        congr 1
        cases e with
        | setup p => simp only [step, inOrder]; split <;> rfl
        | setupDone p => simp only [step, inOrder]; split <;> rfl
        | loadPop _ => rfl
        | clear _ => rfl
        | evaluate _ => rfl
        | abortPop _ => rfl
        | call _ => rfl
        | shutdownDE _ => rfl
        | _ => cases hk
      | some k =>
        have hk1 : k ≠ .restart := by rintro rfl; exact e1 (toKey_restart hk)
        have hk2 : k ≠ .shutdown := by rintro rfl; cases e <;> simp [toKey] at hk e2
        obtain ⟨s1, s2⟩ := sane_step h hk1 hk2
        rw [step_some w hk]
        refine ⟨s1, ?_⟩
        rw [s2, List.append_assoc]
        congr 1
        cases e with
        | newPop => simp only [toKey, Option.some.injEq] at hk; subst hk; simp [step, inOrder, kn, kd]
        | newDE p => simp only [toKey, Option.some.injEq] at hk; subst hk; simp [step, inOrder, kn, kd]
        | press => simp only [toKey, Option.some.injEq] at hk; subst hk; simp [step, inOrder, kn, kd]
        | abortNow => simp only [toKey, Option.some.injEq] at hk; subst hk; simp [step, inOrder, kn, kd]
        | turn => simp only [toKey, Option.some.injEq] at hk; subst hk; simp [step, inOrder, kn, kd]
        | ignore => simp only [toKey, Option.some.injEq] at hk; subst hk; simp [step, inOrder, kn, kd]
        | keyboardShutdown => exact absurd rfl e2
        | restart => exact absurd rfl e1
        | _ => cases hk
    obtain ⟨i1, i2⟩ := ih (step w e) r1 r2 main.1
    exact ⟨i1, i2.trans main.2.symm⟩

/-- C144: whatever is called, by the keyboard or by the reactor, is called in the order in which the objects were made: in
particular a population is aborted before a run of it is shut down, as `Verif/Model/AbortRun.lean` takes it. -/
theorem C144_order (es : List Event) (h1 : Event.restart ∉ es) (h2 : Event.keyboardShutdown ∉ es) :
    (run start es).kb.called ++ (run start es).kb.calledLater <+: inOrder 0 0 es := by
  obtain ⟨⟨s1, s2⟩, h⟩ := order_run es start h1 h2 ⟨fun _ => ⟨rfl, rfl⟩, fun h => by cases h⟩
  have h0 : total start.kb = [] := rfl
  rw [h0, List.nil_append] at h
  show _ <+: inOrder start.nPops start.nDEs es
  rw [← h]
  unfold total
  cases ha : (run start es).kb.alive with
  | true =>
    obtain ⟨a, b⟩ := s1 ha
    rw [a, b]; simp
  | false => rw [s2 ha]; simp

example := C144_order demo (by decide) (by decide)

example : (run start demo).kb.called ++ (run start demo).kb.calledLater =
    [abortOf 0, shutdownOf 0, shutdownOf 1, shutdownOf 2] := by decide +kernel

end EnterKey
end Ade
