import Verif.Model.Session
import Verif.Props.RunSystem

/-!
# Property C114: one run after another

Calling an object again, and making another object for the same population.
-/

set_option autoImplicit false

namespace Ade
namespace Session

open DESystem
open Sequential (popAfter)

variable {I : Type}

/-! ## Calling again -/

/-- C114, negation: when the run of an object is over, calling it again issues no challenge and changes no member,
whatever the settings are now; the new run ends without a final report. -/
theorem C114_called_again (c c' : RunSystem.Cfg I) (hd : c.Distinct) (pop₀ : ℕ → I) (acts more : List RunSystem.RAct)
    (s s' : RunSystem.RS I) (b : Bool) (h : RunSystem.run c (RunSystem.start pop₀) acts = some s)
    (he : s.stage = .ended b) (h' : RunSystem.run c' (again s) more = some s') :
    s'.sys.pop = s.sys.pop ∧ s'.sys.issued = s.sys.issued ∧ s'.stage ≠ .closing ∧ s'.stage ≠ .ended true := by
  have hrun : s.sys.running = false := by
    have hS := (RunSystem.rinv_run hd h).stage
    rw [he] at hS
    cases b with
    | true => exact hS.2.2.2.1
    | false => exact hS
  have key := RunSystem.rrun_induction (c := c') (fun t => t.sys.running = false ∧ t.sys.pop = s.sys.pop ∧
    t.sys.issued = s.sys.issued ∧ (t.stage = .opening ∨ t.stage = .reports 0 ∨ t.stage = .ended false)) ?_ more
    (again s) s' ⟨hrun, rfl, rfl, .inl rfl⟩ h'
  · obtain ⟨-, k2, k3, k4⟩ := key
    exact ⟨k2, k3, by rcases k4 with e | e | e <;> simp [e], by rcases k4 with e | e | e <;> simp [e]⟩
  rintro t a t' ⟨h1, h2, h3, h4⟩ hs
  have hset : ∀ u : RunSystem.RS I, u.stage = t.stage → RunSystem.settle u = u := by
    intro u hu; unfold RunSystem.settle; rw [hu]; rcases h4 with e | e | e <;> rw [e]
  have hch : ∀ a, a.isProgress = true → RunSystem.challengeStep c' t a = some t' → t'.sys.running = false ∧
      t'.sys.pop = s.sys.pop ∧ t'.sys.issued = s.sys.issued ∧
      (t'.stage = .opening ∨ t'.stage = .reports 0 ∨ t'.stage = .ended false) := by
    intro a ha hh
    unfold RunSystem.challengeStep at hh
    split at hh
    · cases hh
    · rename_i u hu
      injection hh with hh; subst hh
      rw [hset { t with sys := u } rfl]
      exact ⟨(RunSystem.progress_keeps ha hu).2.1 h1, (C35_frozen _ _ _ _ h1 hu).1.trans h2,
        (RunSystem.progress_keeps ha hu).1.trans h3, h4⟩
  cases a with
  | grant j => exact hch _ rfl hs
  | finish j => exact hch _ rfl hs
  | recorded j =>
    simp only [RunSystem.step] at hs
    split at hs
    · cases hs
    · exact hch _ rfl hs
  | fails j =>
    simp only [RunSystem.step] at hs
    split at hs
    · cases hs
    · split at hs
      · injection hs with hs; subst hs
        rw [hset _ (by rfl)]; exact ⟨h1, h2, h3, h4⟩
      · cases hs
  | reported =>
    simp only [RunSystem.step] at hs
    split at hs
    · cases hs
    · rcases h4 with e | e | e <;> simp only [e] at hs
      · injection hs with hs; subst hs
        refine ⟨h1, h2, h3, ?_⟩
        simp only [RunSystem.enter, h1]
        split <;> simp
      · simp only [h1, Bool.false_eq_true, if_false] at hs
        injection hs with hs; subst hs
        exact ⟨h1, h2, h3, .inr (.inr rfl)⟩
      · cases hs
  | blocks => simp only [RunSystem.step] at hs; injection hs with hs; subst hs; exact ⟨h1, h2, h3, h4⟩
  | shutdown =>
    simp only [RunSystem.step] at hs; injection hs with hs; subst hs
    rw [hset _ (by rfl)]; exact ⟨rfl, h2, h3, h4⟩
  | issue => rcases h4 with e | e | e <;> simp [RunSystem.step, e] at hs
  | collect st cb => rcases h4 with e | e | e <;> simp [RunSystem.step, e] at hs

/-! ## Another object -/

/-- The challenges of the first object as far as the second one is concerned: they do nothing to the population. -/
def idleOld (P : Params I) (m : ℕ) : Params I :=
  { P with req := fun j => if j < m then { P.req j with trial := fun _ _ _ _ => .failedConstraints } else P.req j }

/-- An evaluation of the first object is only waited for, like the addition to the history. -/
def blankPhase : Phase I → Phase I
  | .evaluating _ _ => .recording
  | p => p

def blank (s : Sys I) (m : ℕ) : Sys I := { s with phase := fun j => if j < m then blankPhase (s.phase j) else s.phase j }

theorem idleOld_idx (P : Params I) (m j : ℕ) : ((idleOld P m).req j).idx = (P.req j).idx := by
  unfold idleOld; by_cases h : j < m <;> simp [h, Req.idx]

theorem idleOld_kt (P : Params I) (m j : ℕ) : ((idleOld P m).req j).kt = (P.req j).kt := by
  unfold idleOld; by_cases h : j < m <;> simp [h]

theorem idleOld_ge (P : Params I) (m : ℕ) {j : ℕ} (h : m ≤ j) : (idleOld P m).req j = P.req j := by
  simp [idleOld, Nat.not_lt.2 h]

theorem blankPhase_kind (p : Phase I) : (blankPhase p).kind = p.kind := by cases p <;> rfl

theorem blank_kind (s : Sys I) (m j : ℕ) : (blank s m).kind j = s.kind j := by
  unfold Sys.kind blank; by_cases h : j < m <;> simp [h, blankPhase_kind]

theorem blank_ge (s : Sys I) (m : ℕ) {j : ℕ} (h : m ≤ j) : (blank s m).phase j = s.phase j := by
  simp [blank, Nat.not_lt.2 h]

theorem blank_update (s : Sys I) (m : ℕ) (q : ℕ → List ℕ) (pop : ℕ → I) (n : ℕ) (r : Bool) {j : ℕ} (h : m ≤ j) (p : Phase I) :
    blank ⟨pop, q, Function.update s.phase j p, n, r⟩ m =
      ⟨pop, q, Function.update (blank s m).phase j p, n, r⟩ := by
  unfold blank
  congr 1
  funext i
  by_cases hi : i = j
  · subst hi; simp [Nat.not_lt.2 h]
  · simp [Function.update, hi]

theorem idleOld_distinct {P : Params I} (hd : Distinct P) (m : ℕ) : Distinct (idleOld P m) := by
  intro j; rw [idleOld_idx]; exact hd j

/-- An act of the second object is an act with the first object's challenges idle. -/
theorem step_new {P : Params I} {s t : Sys I} {a : Act} {m : ℕ} (hm : m ≤ s.issued)
    (ha : ∀ j, subject a = some j → m ≤ j) (h : DESystem.step P s a = some t) :
    DESystem.step (idleOld P m) (blank s m) a = some (blank t m) := by
  cases a with
  | issue =>
    simp only [DESystem.step] at h ⊢
    have hr : (idleOld P m).req (blank s m).issued = P.req s.issued := idleOld_ge P m hm
    by_cases hrun : s.running = true
    · have hrun' : (blank s m).running = true := hrun
      simp only [hrun, if_true] at h
      simp only [hrun', if_true]
      injection h with h; subst h
      rw [hr]
      exact congrArg some (blank_update s m _ _ _ _ hm _).symm
    · have hrun' : ¬ (blank s m).running = true := hrun
      simp only [hrun] at h
      simp only [hrun']
      injection h with h; subst h
      exact congrArg some (blank_update s m _ _ _ _ hm _).symm
  | grant j =>
    have hj := ha j rfl
    simp only [DESystem.step] at h ⊢
    have hp := blank_ge s m hj
    have hr := idleOld_ge P m hj
    have hg : granted (idleOld P m) (blank s m) j = granted P s j := by unfold granted; rw [hr]; rfl
    rw [hp]
    cases hps : s.phase j with
    | waiting =>
      simp only [hps, hg, hr] at h ⊢
      split at h
      · rename_i hgr
        simp only [hgr, if_true]
        by_cases hrun : s.running = true
        · have hrun' : (blank s m).running = true := hrun
          simp only [hrun, if_true] at h
          simp only [hrun', if_true]
          have hpop : (blank s m).pop = s.pop := rfl
          rw [hpop]
          cases ho : (P.req j).trial (s.pop (P.req j).kt) (s.pop (P.req j).kb) (s.pop (P.req j).k0) (s.pop (P.req j).k1) with
          | failedConstraints =>
            simp only [ho] at h ⊢
            injection h with h; subst h
            exact congrArg some (blank_update s m _ _ _ _ hj _).symm
          | fatal =>
            simp only [ho] at h ⊢
            injection h with h; subst h
            exact congrArg some (blank_update s m _ _ _ _ hj _).symm
          | evaluated c =>
            simp only [ho] at h ⊢
            injection h with h; subst h
            exact congrArg some (blank_update s m _ _ _ _ hj _).symm
        · have hrun' : ¬ (blank s m).running = true := hrun
          simp only [hrun] at h
          simp only [hrun']
          injection h with h; subst h
          exact congrArg some (blank_update s m _ _ _ _ hj _).symm
      · cases h
    | idle => simp [hps] at h
    | evaluating x o => simp [hps] at h
    | recording => simp [hps] at h
    | done => simp [hps] at h
  | finish j =>
    have hj := ha j rfl
    simp only [DESystem.step] at h ⊢
    have hp := blank_ge s m hj
    have hr := idleOld_ge P m hj
    have hlt : (idleOld P m).lt = P.lt := rfl
    have hx : (idleOld P m).xSSE = P.xSSE := rfl
    rw [hp]
    cases hps : s.phase j with
    | evaluating x o =>
      simp only [hps, hr, hlt, hx] at h ⊢
      have hrb : (blank s m).running = s.running := rfl
      rw [hrb]
      cases o with
      | evaluated c =>
        cases hrun : s.running with
        | true =>
          simp only [hrun] at h ⊢
          split at h
          · rename_i hl
            simp only [hl, if_true]
            injection h with h; subst h
            exact congrArg some (blank_update s m _ _ _ _ hj _).symm
          · rename_i hl
            simp only [hl]
            split at h
            · rename_i hx
              simp only [hx, if_true]
              injection h with h; subst h
              exact congrArg some (blank_update s m _ _ _ _ hj _).symm
            · rename_i hx
              simp only [hx]
              injection h with h; subst h
              exact congrArg some (blank_update s m _ _ _ _ hj _).symm
        | false =>
          simp only [hrun] at h ⊢
          injection h with h; subst h
          exact congrArg some (blank_update s m _ _ _ _ hj _).symm
      | failedConstraints =>
        injection h with h; subst h
        exact congrArg some (blank_update s m _ _ _ _ hj _).symm
      | fatal =>
        injection h with h; subst h
        exact congrArg some (blank_update s m _ _ _ _ hj _).symm
    | idle => simp [hps] at h
    | waiting => simp [hps] at h
    | recording => simp [hps] at h
    | done => simp [hps] at h
  | recorded j =>
    have hj := ha j rfl
    simp only [DESystem.step] at h ⊢
    have hp := blank_ge s m hj
    have hr := idleOld_ge P m hj
    rw [hp]
    cases hps : s.phase j with
    | recording =>
      simp only [hps, hr] at h ⊢
      injection h with h; subst h
      exact congrArg some (blank_update s m _ _ _ _ hj _).symm
    | idle => simp [hps] at h
    | waiting => simp [hps] at h
    | evaluating x o => simp [hps] at h
    | done => simp [hps] at h
  | shutdown =>
    simp only [DESystem.step] at h ⊢
    injection h with h; subst h; rfl

/-- The end of an evaluation or addition of the first object is the end of an addition with its challenges idle. -/
theorem step_old {P : Params I} {s t : Sys I} {a : Act} {m : ℕ} {j : ℕ} (hj : j < m) (ha : subject a = some j)
    (hw : s.phase j ≠ .waiting) (h : DESystem.step P { s with running := false } a = some t) :
    DESystem.step (idleOld P m) (blank s m) (.recorded j) = some (blank { t with running := s.running } m) ∧
      ∀ i, t.phase i = .waiting → s.phase i = .waiting := by
  have hres : ∀ t : Sys I, t = { s with
        running := false
        queue := release s.queue (P.req j).kt
        phase := Function.update s.phase j .done } → blankPhase (s.phase j) = .recording →
      DESystem.step (idleOld P m) (blank s m) (.recorded j) = some (blank { t with running := s.running } m) ∧
      ∀ i, t.phase i = .waiting → s.phase i = .waiting := by
    rintro t rfl hp
    constructor
    · have hb : (blank s m).phase j = .recording := by simp [blank, hj, hp]
      simp only [DESystem.step, hb, idleOld_kt]
      congr 1
      unfold blank
      congr 1
      funext i
      by_cases hi : i = j
      · subst hi; simp [hj, blankPhase]
      · simp [Function.update, hi]
    · intro i hi
      by_cases hij : i = j
      · subst hij; simp at hi
      · simpa [Function.update, hij] using hi
  cases a with
  | issue => cases ha
  | shutdown => cases ha
  | grant i =>
    injection ha with ha; subst ha
    simp only [DESystem.step] at h
    cases hps : s.phase i with
    | waiting => exact absurd hps hw
    | idle => simp at h
    | evaluating x o => simp at h
    | recording => simp at h
    | done => simp at h
  | finish i =>
    injection ha with ha; subst ha
    simp only [DESystem.step] at h
    cases hps : s.phase i with
    | evaluating x o =>
      rw [hps] at h
      refine hres t ?_ (by rw [hps]; rfl)
      cases o <;> (injection h with h; exact h.symm)
    | waiting => exact absurd hps hw
    | idle => simp [hps] at h
    | recording => simp [hps] at h
    | done => simp [hps] at h
  | recorded i =>
    injection ha with ha; subst ha
    simp only [DESystem.step] at h
    cases hps : s.phase i with
    | recording =>
      rw [hps] at h
      exact hres t (by injection h with h; exact h.symm) (by rw [hps]; rfl)
    | waiting => exact absurd hps hw
    | idle => simp [hps] at h
    | evaluating x o => simp [hps] at h
    | done => simp [hps] at h

/-- What is known while the second object runs. -/
structure Ok (P : Params I) (pop₀ : ℕ → I) (m : ℕ) (t : Ses I) : Prop where
  old : t.old = m
  le : m ≤ t.sys.issued
  notWaiting : ∀ j, j < m → t.sys.phase j ≠ .waiting
  inv : Inv (idleOld P m) (blank t.sys m)
  run : t.sys.running = true → RunInv (idleOld P m) (blank t.sys m) ∧ SeqInv (idleOld P m) pop₀ (blank t.sys m)

theorem issued_le {P : Params I} {s t : Sys I} {a : Act} (h : DESystem.step P s a = some t) : s.issued ≤ t.issued := by
  cases a with
  | issue => simp only [DESystem.step] at h; split at h <;> (injection h with h; subst h; simp)
  | shutdown => simp only [DESystem.step] at h; injection h with h; subst h; exact le_refl _
  | grant j => exact le_of_eq (RunSystem.progress_keeps rfl h).1.symm
  | finish j => exact le_of_eq (RunSystem.progress_keeps rfl h).1.symm
  | recorded j => exact le_of_eq (RunSystem.progress_keeps rfl h).1.symm

theorem waiting_new {P : Params I} {s t : Sys I} {a : Act} {m : ℕ} (hm : m ≤ s.issued)
    (h : DESystem.step P s a = some t) (j : ℕ) (hj : j < m) (hw : t.phase j = .waiting) : s.phase j = .waiting := by
  have hu : ∀ i p, Function.update s.phase i p j = .waiting → p ≠ .waiting → s.phase j = .waiting := by
    intro i p hi hp
    by_cases hij : j = i
    · subst hij; simp at hi; exact absurd hi hp
    · simpa [Function.update, hij] using hi
  cases a with
  | issue =>
    simp only [DESystem.step] at h
    split at h <;> (injection h with h; subst h; simpa [Function.update, show j ≠ s.issued by omega] using hw)
  | shutdown => simp only [DESystem.step] at h; injection h with h; subst h; exact hw
  | grant i =>
    simp only [DESystem.step] at h
    split at h
    · split at h
      · split at h
        · split at h <;> (injection h with h; subst h; exact hu _ _ hw (by simp))
        · injection h with h; subst h; exact hu _ _ hw (by simp)
      · cases h
    · cases h
  | finish i =>
    simp only [DESystem.step] at h
    split at h
    · split at h
      · split at h
        · injection h with h; subst h; exact hu _ _ hw (by simp)
        · split at h <;> (injection h with h; subst h; exact hu _ _ hw (by simp))
      · injection h with h; subst h; exact hu _ _ hw (by simp)
    · cases h
  | recorded i =>
    simp only [DESystem.step] at h
    split at h
    · injection h with h; subst h; exact hu _ _ hw (by simp)
    · cases h

theorem ok_step {P : Params I} (hd : Distinct P) {pop₀ : ℕ → I} {m : ℕ} {t t' : Ses I} {a : Act} (h : Ok P pop₀ m t)
    (hs : step P t a = some t') : Ok P pop₀ m t' := by
  -- `b` is the act of the system with the first object's challenges idle
  have key : ∀ b, DESystem.step (idleOld P m) (blank t.sys m) b = some (blank t'.sys m) → t'.old = m →
      m ≤ t'.sys.issued → (∀ j, j < m → t'.sys.phase j ≠ .waiting) → Ok P pop₀ m t' := by
    intro b hb h1 h2 h3
    obtain ⟨i1, i2⟩ := inv_step (idleOld_distinct hd m) h.inv (fun hr => (h.run hr).1) hb
    refine ⟨h1, h2, h3, i1, fun hr => ⟨i2 hr, ?_⟩⟩
    have hr0 : (blank t.sys m).running = true := running_mono hb hr
    exact seq_step h.inv (h.run hr0).1 hr0 (h.run hr0).2 hb hr
  unfold step at hs
  split at hs
  · rename_i hold
    unfold isOld at hold
    split at hold
    · rename_i j hj
      have hjm : j < m := by rw [← h.old]; simpa using hold
      split at hs
      · cases hs
      · rename_i u hu
        injection hs with hs; subst hs
        obtain ⟨k1, k2⟩ := step_old hjm hj (h.notWaiting j hjm) hu
        refine key _ k1 h.old ?_ ?_
        · exact h.le.trans (show ({ t.sys with running := false } : Sys I).issued ≤ u.issued from issued_le hu)
        · intro i hi hw
          exact h.notWaiting i hi (k2 i hw)
    · cases hold
  · rename_i hold
    split at hs
    · cases hs
    · rename_i u hu
      injection hs with hs; subst hs
      refine key a (step_new h.le ?_ hu) h.old (h.le.trans (issued_le hu)) ?_
      · intro j hj
        unfold isOld at hold
        rw [hj] at hold
        simp only [decide_eq_true_eq] at hold
        have := h.old; omega
      · intro i hi hw
        exact h.notWaiting i hi (waiting_new h.le hu i hi hw)

theorem ok_run {P : Params I} (hd : Distinct P) {pop₀ : ℕ → I} {m : ℕ} (acts : List Act) (t t' : Ses I)
    (h : Ok P pop₀ m t) (hs : run P t acts = some t') : Ok P pop₀ m t' := by
  induction acts generalizing t with
  | nil => simp only [run, Option.some.injEq] at hs; subst hs; exact h
  | cons a as ih =>
    simp only [run] at hs
    split at hs
    · cases hs
    · rename_i u hu; exact ih u (ok_step hd h hu) hs

/-- The challenges that have not returned are past waiting, and each of them holds the lock of its target. -/
def Settled (P : Params I) (s : Sys I) : Prop :=
  ∀ j, s.phase j ≠ .waiting ∧ ((∃ x o, s.phase j = .evaluating x o) ∨ s.phase j = .recording →
    (s.queue (P.req j).kt).head? = some j)

theorem popAfter_idle (P : Params I) (m : ℕ) (pop : ℕ → I) (n : ℕ) (hn : n ≤ m) :
    popAfter P.lt (idleOld P m).req pop n = pop := by
  induction n with
  | zero => rfl
  | succ n ih =>
    show Sequential.challenge P.lt _ _ = _
    rw [ih (by omega)]
    have : ((idleOld P m).req n).trial = fun _ _ _ _ => .failedConstraints := by
      simp [idleOld, show n < m by omega]
    unfold Sequential.challenge
    rw [this]

theorem popAfter_shift (P : Params I) (m : ℕ) (pop : ℕ → I) (n : ℕ) :
    popAfter P.lt (idleOld P m).req pop (m + n) = popAfter P.lt (fun i => P.req (m + i)) pop n := by
  induction n with
  | zero => exact popAfter_idle P m pop m (le_refl _)
  | succ n ih =>
    show Sequential.challenge P.lt (popAfter P.lt (idleOld P m).req pop (m + n)) ((idleOld P m).req (m + n)) = _
    rw [ih, idleOld_ge P m (by omega)]; rfl

theorem ok_another {P : Params I} (hd : Distinct P) {pop₀ : ℕ → I} {s : Sys I} (h : Reachable P pop₀ s)
    (hs : Settled P s) : Ok P s.pop s.issued (another s) := by
  obtain ⟨hinv, -⟩ := inv_reachable hd h
  have hk : ∀ j, (blank { s with running := true } s.issued).kind j = s.kind j := fun j => by
    rw [blank_kind]; rfl
  have hnw : ∀ j, s.kind j ≠ .waiting := by
    intro j hj
    apply (hs j).1
    unfold Sys.kind at hj
    cases hp : s.phase j <;> simp_all [Phase.kind]
  have hdone : ∀ i, i < s.issued → Decided (blank { s with running := true } s.issued) i := by
    intro i hi
    have h1 := (hinv.issued i).1 hi
    have h2 := hnw i
    unfold Decided blank
    simp only [hi, if_true]
    unfold Sys.kind at h1 h2
    cases hp : s.phase i <;> simp_all [Phase.kind, blankPhase]
  have hidle : ∀ i, s.issued ≤ i → (blank { s with running := true } s.issued).phase i = .idle := by
    intro i hi
    have h1 : ¬ s.kind i ≠ .idle := fun hc => absurd ((hinv.issued i).2 hc) (by omega)
    rw [blank_ge _ _ hi]
    unfold Sys.kind at h1
    show s.phase i = _
    cases hp : s.phase i <;> simp_all [Phase.kind]
  refine ⟨rfl, le_refl _, fun j _ => (hs j).1, ⟨hinv.sorted, ?_, ?_⟩, fun _ => ⟨⟨?_, ?_, ?_⟩, ⟨?_, ?_, ?_⟩⟩⟩
  · intro j; rw [show (another s).sys = { s with running := true } from rfl, hk]; exact hinv.issued j
  · intro k j hj
    rw [show (another s).sys = { s with running := true } from rfl, hk, idleOld_idx, idleOld_kt]
    exact hinv.member k j hj
  · intro j hj; rw [show (another s).sys = { s with running := true } from rfl, hk] at hj; exact absurd hj (hnw j)
  · intro j hj
    rw [show (another s).sys = { s with running := true } from rfl, hk] at hj
    rw [idleOld_kt]
    apply (hs j).2
    unfold Sys.kind at hj
    cases hp : s.phase j <;> simp_all [Phase.kind]
  · intro i j _ _ _; rw [show (another s).sys = { s with running := true } from rfl, hk]; exact hnw j
  · intro j t out hp
    by_cases hj : j < s.issued
    · have := hdone j hj
      unfold Decided at this
      rw [show (another s).sys = { s with running := true } from rfl] at hp
      rcases this with e | e <;> rw [e] at hp <;> cases hp
    · rw [show (another s).sys = { s with running := true } from rfl, hidle j (by omega)] at hp; cases hp
  · intro k n h1 h2
    by_cases hn : n ≤ s.issued
    · exact (congrFun (popAfter_idle P s.issued s.pop n hn) k).symm
    · have h3 := popAfter_stable (idleOld P s.issued) s.pop k s.issued n (by omega) (by
        intro i hi hin hkt
        have := h1 i hin hkt
        unfold Decided at this
        rw [show (another s).sys = { s with running := true } from rfl, hidle i hi] at this
        simp at this)
      rw [h3]
      exact (congrFun (popAfter_idle P s.issued s.pop s.issued (le_refl _)) k).symm
  · intro i j hji _ hi
    apply hdone
    by_contra hc
    unfold Decided at hi
    rw [show (another s).sys = { s with running := true } from rfl, hidle i (by omega)] at hi
    simp at hi

/-- C114, what does hold: another object, made when the challenges of the first one that have not returned hold the locks
of their targets and none of them is waiting for locks, runs as if it were the only one: when its challenges have
returned, the population is the one that results if they are carried out one after the other, beginning with the members
the first run has left. -/
theorem C114_undisturbed_partial (P : Params I) (hd : Distinct P) (pop₀ : ℕ → I) (s : Sys I) (h : Reachable P pop₀ s)
    (hs : Settled P s) (acts : List Act) (t : Ses I) (ht : run P (another s) acts = some t)
    (hrun : t.sys.running = true) (hall : ∀ j, s.issued ≤ j → j < t.sys.issued → t.sys.phase j = .done) :
    t.sys.pop = popAfter P.lt (fun n => P.req (s.issued + n)) s.pop (t.sys.issued - s.issued) := by
  have hok := ok_run hd acts _ _ (ok_another hd h hs) ht
  have hq := (hok.run hrun).2
  have hle := hok.le
  rw [← popAfter_shift, show s.issued + (t.sys.issued - s.issued) = t.sys.issued by omega]
  funext k
  show (blank t.sys s.issued).pop k = _
  apply hq.frontier
  · intro i hi _
    by_cases his : i < s.issued
    · have h1 := (hok.inv.issued i).1 hi
      have h2 := hok.notWaiting i his
      rw [blank_kind] at h1
      unfold Sys.kind at h1
      unfold Decided blank
      simp only [his, if_true]
      cases hp : t.sys.phase i <;> simp_all [Phase.kind, blankPhase]
    · right
      rw [blank_ge _ _ (by omega)]
      exact hall i (by omega) hi
  · intro i hi _ hdec
    have h1 := decided_kind hdec
    have h2 : ¬ i < t.sys.issued := by omega
    have h3 : (blank t.sys s.issued).kind i = .idle := by
      by_contra hc; exact h2 ((hok.inv.issued i).2 hc)
    rw [h3] at h1
    simp at h1

/-- C114: that is so when all challenges of the first object have returned, as at the normal end of a run (C111). -/
theorem C114_settled_returned (P : Params I) (s : Sys I) (h : ∀ j, s.phase j = .idle ∨ s.phase j = .done) :
    Settled P s := by
  intro j
  rcases h j with e | e <;> simp [e]

/-- C114: that is so when the first object is shut down while none of its challenges is waiting for locks. -/
theorem C114_settled_shutdown (P : Params I) (hd : Distinct P) (pop₀ : ℕ → I) (s : Sys I) (h : Reachable P pop₀ s)
    (hrun : s.running = true) (hw : ∀ j, s.phase j ≠ .waiting) : Settled P { s with running := false } := by
  intro j
  refine ⟨hw j, fun hj => ?_⟩
  refine ((inv_reachable hd h).2 hrun).holds j ?_
  rcases hj with ⟨x, o, e⟩ | e
  · have e' : s.phase j = .evaluating x o := e
    simp [Sys.kind, e', Phase.kind]
  · have e' : s.phase j = .recording := e
    simp [Sys.kind, e', Phase.kind]

theorem popAfter_improves (lt : I → I → Bool) (htrans : ∀ a b c, lt a b = true → lt b c = true → lt a c = true)
    (req : ℕ → Req I) (pop : ℕ → I) (n k : ℕ) :
    popAfter lt req pop n k = pop k ∨ lt (popAfter lt req pop n k) (pop k) = true := by
  induction n with
  | zero => exact .inl rfl
  | succ n ih =>
    show Sequential.challenge lt _ _ k = _ ∨ lt (Sequential.challenge lt _ _ k) _ = true
    unfold Sequential.challenge
    generalize (req n).trial _ _ _ _ = o
    cases o with
    | evaluated c =>
      by_cases hk : k = (req n).kt ∧ lt c (popAfter lt req pop n (req n).kt) = true
      · simp only [if_pos hk]
        obtain ⟨rfl, hl⟩ := hk
        rcases ih with e | e
        · rw [e] at hl; exact .inr hl
        · exact .inr (htrans _ _ _ hl e)
      · simp only [if_neg hk]; exact ih
    | failedConstraints => exact ih
    | fatal => exact ih

/-- C114: over such a further run, no member gets worse. -/
theorem C114_improves_partial (P : Params I) (hd : Distinct P)
    (htrans : ∀ a b c, P.lt a b = true → P.lt b c = true → P.lt a c = true) (pop₀ : ℕ → I) (s : Sys I)
    (h : Reachable P pop₀ s) (hs : Settled P s) (acts : List Act) (t : Ses I) (ht : run P (another s) acts = some t)
    (hrun : t.sys.running = true) (hall : ∀ j, s.issued ≤ j → j < t.sys.issued → t.sys.phase j = .done) (k : ℕ) :
    t.sys.pop k = s.pop k ∨ P.lt (t.sys.pop k) (s.pop k) = true := by
  rw [C114_undisturbed_partial P hd pop₀ s h hs acts t ht hrun hall]
  exact popAfter_improves P.lt htrans _ _ _ k

/-! ## The first object's challenges in the way -/

/-- Eight numbers.  Challenges 0 and 1 are those of the first object, 2 and 3 those of the second one. -/
def exParams : Params ℕ :=
  ⟨fun a b => decide (a < b), true, fun n =>
    match n with
    | 0 => ⟨0, 1, 2, 3, fun _ b _ _ => .evaluated (b - 5)⟩
    | 1 => ⟨1, 0, 2, 3, fun _ b _ _ => .evaluated (b - 5)⟩
    | 2 => ⟨5, 4, 6, 7, fun _ b _ _ => .evaluated (b - 5)⟩
    | _ => ⟨4, 5, 6, 7, fun _ b _ _ => .evaluated (b - 5)⟩⟩

theorem exParams_distinct : Distinct exParams := by
  intro j
  match j with
  | 0 => decide
  | 1 => decide
  | 2 => decide
  | j + 3 => show List.Nodup [4, 5, 6, 7]; decide

/-- C114, negation: a challenge of the first object that is waiting for locks when the object is shut down releases all
locks later, also those of the second object, whose challenges then read members that are about to be replaced.  The
result is not that of its challenges one after the other. -/
theorem C114_disturbed : ∃ (P : Params ℕ) (s : Sys ℕ) (acts : List Act) (t : Ses ℕ), Distinct P ∧
    DESystem.run P (init fun k => 10 + k) [.issue, .issue, .grant 0, .shutdown] = some s ∧
    run P (another s) acts = some t ∧ t.sys.running = true ∧ t.sys.issued = 4 ∧
    (∀ j, j < 4 → (match t.sys.phase j with | .done => true | _ => false) = true) ∧
    t.sys.pop 4 = 10 ∧ popAfter P.lt (fun n => P.req (2 + n)) s.pop 2 4 = 4 := by
  refine ⟨exParams, _, [.issue, .issue, .grant 2, .finish 0, .grant 1, .grant 3, .finish 2, .finish 3], _,
    exParams_distinct, eq_get (by decide +kernel), eq_get (by decide +kernel), ?_, ?_, ?_, ?_, ?_⟩ <;> decide +kernel

/-! ## Examples -/

/-- The run is shut down while challenges are in progress; the object is called again. -/
example := C114_called_again (RunSystem.exFixed false) (RunSystem.exFixed true) (RunSystem.exFixed_distinct _)
  (fun k => 10 + k) _ [.reported, .finish 0, .reported] RunSystem.exOver _ false (RunSystem.exFirst_run _ _)
  (by decide +kernel)
  (eq_get (o := RunSystem.run (RunSystem.exFixed true) (again RunSystem.exOver) [.reported, .finish 0, .reported])
    (by decide +kernel))

/-- One challenge, being evaluated. -/
def exOne : Sys ℕ := (DESystem.run exParams (init fun k => 10 + k) [.issue, .grant 0]).get (by decide +kernel)

theorem exOne_run : DESystem.run exParams (init fun k => 10 + k) [.issue, .grant 0] = some exOne := eq_get _

theorem exOne_issued : exOne.issued = 1 := by decide +kernel

theorem exOne_phase (j : ℕ) : exOne.phase j ≠ .waiting := by
  by_cases hj : j = 0
  · subst hj
    have : (match exOne.phase 0 with | .waiting => false | _ => true) = true := by decide +kernel
    intro h; rw [h] at this; cases this
  · have hinv := (inv_reachable exParams_distinct ⟨_, exOne_run⟩).1
    intro h
    have := (hinv.issued j).2 (by simp [Sys.kind, h, Phase.kind])
    rw [exOne_issued] at this
    omega

theorem exOne_running : exOne.running = true := by decide +kernel

/-- It is shut down. -/
def exStopped : Sys ℕ := { exOne with running := false }

theorem exStopped_run : DESystem.run exParams (init fun k => 10 + k) [.issue, .grant 0, .shutdown] = some exStopped := by
  have := exOne_run
  exact run_concat (acts := [.issue, .grant 0]) this rfl

theorem exStopped_settled : Settled exParams exStopped :=
  C114_settled_shutdown exParams exParams_distinct (fun k => 10 + k) exOne ⟨_, exOne_run⟩ exOne_running exOne_phase

example := C114_settled_shutdown exParams exParams_distinct (fun k => 10 + k) exOne ⟨_, exOne_run⟩ exOne_running exOne_phase

example := C114_settled_returned exParams (init fun k => 10 + k) (fun _ => .inl rfl)

/-- Challenge 1 of the second object waits for the target of challenge 0. -/
def exMore : Ses ℕ := (run exParams (another exStopped) [.issue, .finish 0, .grant 1, .finish 1]).get (by decide +kernel)

theorem exMore_run : run exParams (another exStopped) [.issue, .finish 0, .grant 1, .finish 1] = some exMore := eq_get _

theorem exMore_done (j : ℕ) (h1 : exStopped.issued ≤ j) (h2 : j < exMore.sys.issued) : exMore.sys.phase j = .done := by
  have e1 : exStopped.issued = 1 := exOne_issued
  have e2 : exMore.sys.issued = 2 := by decide +kernel
  obtain rfl : j = 1 := by omega
  have : (match exMore.sys.phase 1 with | .done => true | _ => false) = true := by decide +kernel
  cases hp : exMore.sys.phase 1 <;> simp_all

theorem exMore_running : exMore.sys.running = true := by decide +kernel

attribute [irreducible] exOne exMore

example := C114_undisturbed_partial exParams exParams_distinct (fun k => 10 + k) exStopped ⟨_, exStopped_run⟩
  exStopped_settled _ exMore exMore_run exMore_running exMore_done

example := C114_improves_partial exParams exParams_distinct
  (fun a b c h1 h2 => by simp only [exParams, decide_eq_true_eq] at *; omega) (fun k => 10 + k) exStopped
  ⟨_, exStopped_run⟩ exStopped_settled _ exMore exMore_run exMore_running exMore_done 1

end Session
end Ade
