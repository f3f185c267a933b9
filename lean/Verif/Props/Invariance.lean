import Mathlib.Data.Fin.VecNotation
import Verif.Lemmas.Cases
import Verif.Model.Challenge
import Verif.Props.Challenge
import Verif.Props.ParamManager
import Mathlib.Data.List.FinRange
import Mathlib.Tactic.Linarith
import Mathlib.Tactic.Ring
import Mathlib.Tactic.Positivity

/-!
# Properties C92 and C93: units of parameters, order of parameters, and scales of scores do not matter
-/

set_option autoImplicit false

namespace Ade
namespace DESystem

variable {I J : Type}

/-- Related outcomes. -/
inductive OutRel (R : I → J → Prop) : Outcome I → Outcome J → Prop where
  | failedConstraints : OutRel R .failedConstraints .failedConstraints
  | fatal : OutRel R .fatal .fatal
  | evaluated (i : I) (j : J) (h : R i j) : OutRel R (.evaluated i) (.evaluated j)

/-- Related positions in the code. -/
inductive PhaseRel (R : I → J → Prop) : Phase I → Phase J → Prop where
  | idle : PhaseRel R .idle .idle
  | waiting : PhaseRel R .waiting .waiting
  | evaluating (t : I) (t' : J) (o : Outcome I) (o' : Outcome J) (h : R t t') (ho : OutRel R o o') :
      PhaseRel R (.evaluating t o) (.evaluating t' o')
  | recording : PhaseRel R .recording .recording
  | done : PhaseRel R .done .done

/-- Related states. -/
structure SysRel (R : I → J → Prop) (s : Sys I) (s' : Sys J) : Prop where
  pop : ∀ k, R (s.pop k) (s'.pop k)
  queue : s.queue = s'.queue
  phase : ∀ j, PhaseRel R (s.phase j) (s'.phase j)
  issued : s.issued = s'.issued
  running : s.running = s'.running

/-- Related parameters of a run. -/
structure ParamsRel (R : I → J → Prop) (P : Params I) (P' : Params J) : Prop where
  lt : ∀ a a' b b', R a a' → R b b' → P.lt a b = P'.lt a' b'
  xSSE : P.xSSE = P'.xSSE
  kt : ∀ j, (P.req j).kt = (P'.req j).kt
  kb : ∀ j, (P.req j).kb = (P'.req j).kb
  k0 : ∀ j, (P.req j).k0 = (P'.req j).k0
  k1 : ∀ j, (P.req j).k1 = (P'.req j).k1
  trial : ∀ j t t' b b' x x' y y', R t t' → R b b' → R x x' → R y y' →
    OutRel R ((P.req j).trial t b x y) ((P'.req j).trial t' b' x' y')

theorem phase_update {R : I → J → Prop} {f : ℕ → Phase I} {f' : ℕ → Phase J} (h : ∀ j, PhaseRel R (f j) (f' j))
    (j : ℕ) {p : Phase I} {p' : Phase J} (hp : PhaseRel R p p') (i : ℕ) :
    PhaseRel R (Function.update f j p i) (Function.update f' j p' i) := by
  by_cases hi : i = j
  · subst hi; simpa using hp
  · rw [Function.update_of_ne hi, Function.update_of_ne hi]; exact h i

theorem pop_update {R : I → J → Prop} {f : ℕ → I} {f' : ℕ → J} (h : ∀ j, R (f j) (f' j))
    (j : ℕ) {p : I} {p' : J} (hp : R p p') (i : ℕ) : R (Function.update f j p i) (Function.update f' j p' i) := by
  by_cases hi : i = j
  · subst hi; simpa using hp
  · rw [Function.update_of_ne hi, Function.update_of_ne hi]; exact h i

/-- Related results of an act. -/
def OptRel (R : I → J → Prop) : Option (Sys I) → Option (Sys J) → Prop
  | none, none => True
  | some s, some s' => SysRel R s s'
  | _, _ => False

theorem step_rel {R : I → J → Prop} {P : Params I} {P' : Params J} (hP : ParamsRel R P P') {s : Sys I} {s' : Sys J}
    (h : SysRel R s s') (a : Act) : OptRel R (step P s a) (step P' s' a) := by
  have hidx : ∀ j, (P.req j).idx = (P'.req j).idx := fun j => by
    simp [Req.idx, hP.kt, hP.kb, hP.k0, hP.k1]
  cases a with
  | issue =>
    simp only [step, ← h.running, ← h.issued]
    split
    · exact ⟨h.pop, by simp only [h.queue, hidx], phase_update h.phase _ .waiting, rfl, rfl⟩
    · exact ⟨h.pop, h.queue, phase_update h.phase _ .done, rfl, rfl⟩
  | grant j =>
    simp only [step]
    have hp := h.phase j
    generalize s.phase j = p at hp
    generalize s'.phase j = p' at hp
    cases hp with
    | idle => trivial
    | evaluating => trivial
    | recording => trivial
    | done => trivial
    | waiting =>
      have hg : granted P s j = granted P' s' j := by simp only [granted, hidx, h.queue]
      dsimp only
      rw [← hg, ← h.running, ← h.queue, ← hP.kt, ← hP.kb, ← hP.k0, ← hP.k1]
      split
      · split
        · have ht := hP.trial j _ _ _ _ _ _ _ _ (h.pop (P.req j).kt) (h.pop (P.req j).kb) (h.pop (P.req j).k0)
            (h.pop (P.req j).k1)
          generalize (P.req j).trial _ _ _ _ = o at ht
          generalize (P'.req j).trial _ _ _ _ = o' at ht
          cases ht with
          | failedConstraints => exact ⟨h.pop, rfl, phase_update h.phase _ .done, h.issued, rfl⟩
          | fatal =>
            exact ⟨h.pop, rfl, phase_update h.phase _ (.evaluating _ _ _ _ (h.pop _) .fatal), h.issued, rfl⟩
          | evaluated i i' hi =>
            exact ⟨h.pop, rfl, phase_update h.phase _ (.evaluating _ _ _ _ (h.pop _) (.evaluated _ _ hi)), h.issued, rfl⟩
        · exact ⟨h.pop, rfl, phase_update h.phase _ .done, h.issued, rfl⟩
      · trivial
  | finish j =>
    simp only [step]
    have hp := h.phase j
    generalize s.phase j = p at hp
    generalize s'.phase j = p' at hp
    cases hp with
    | idle => trivial
    | waiting => trivial
    | recording => trivial
    | done => trivial
    | evaluating t t' o o' ht ho =>
      dsimp only
      rw [← h.running, ← h.queue, ← hP.kt, ← hP.xSSE]
      cases ho with
      | failedConstraints => exact ⟨h.pop, rfl, phase_update h.phase _ .done, h.issued, rfl⟩
      | fatal => exact ⟨h.pop, rfl, phase_update h.phase _ .done, h.issued, rfl⟩
      | evaluated i i' hi =>
        cases hr : s.running with
        | false => exact ⟨h.pop, rfl, phase_update h.phase _ .done, h.issued, rfl⟩
        | true =>
          dsimp only
          rw [← hP.lt i i' t t' hi ht]
          split
          · exact ⟨pop_update h.pop _ hi, rfl, phase_update h.phase _ .done, h.issued, rfl⟩
          · split
            · exact ⟨h.pop, rfl, phase_update h.phase _ .recording, h.issued, rfl⟩
            · exact ⟨h.pop, rfl, phase_update h.phase _ .done, h.issued, rfl⟩
  | recorded j =>
    simp only [step]
    have hp := h.phase j
    generalize s.phase j = p at hp
    generalize s'.phase j = p' at hp
    cases hp with
    | idle => trivial
    | waiting => trivial
    | evaluating => trivial
    | done => trivial
    | recording =>
      exact ⟨h.pop, by simp only [h.queue, hP.kt], phase_update h.phase _ .done, h.issued, h.running⟩
  | shutdown => exact ⟨h.pop, h.queue, h.phase, h.issued, rfl⟩

theorem run_rel {R : I → J → Prop} {P : Params I} {P' : Params J} (hP : ParamsRel R P P') (acts : List Act) :
    ∀ {s : Sys I} {s' : Sys J}, SysRel R s s' → OptRel R (run P s acts) (run P' s' acts) := by
  induction acts with
  | nil => intro s s' h; exact h
  | cons a acts ih =>
    intro s s' h
    have h1 := step_rel hP h a
    rw [run, run]
    cases hs : step P s a with
    | none =>
      cases hs' : step P' s' a with
      | none => trivial
      | some y => rw [hs, hs'] at h1; exact h1.elim
    | some x =>
      cases hs' : step P' s' a with
      | none => rw [hs, hs'] at h1; exact h1.elim
      | some y => rw [hs, hs'] at h1; exact ih h1

theorem init_rel {R : I → J → Prop} {pop : ℕ → I} {pop' : ℕ → J} (h : ∀ k, R (pop k) (pop' k)) :
    SysRel R (init pop) (init pop') := ⟨h, rfl, fun _ => .idle, rfl, rfl⟩

end DESystem

namespace Challenge

open DESystem

/-! ## Units -/

/-- Another unit and zero for a parameter: `x` becomes `factor * x + zero`. -/
structure Unit' where
  factor : ℚ
  zero : ℚ

/-- A value in the other unit. -/
def Unit'.conv (u : Unit') (x : ℚ) : ℚ := u.factor * x + u.zero

/-- Values in the other units. -/
def conv (us : List Unit') (vs : List ℚ) : List ℚ := List.zipWith Unit'.conv us vs

/-- Bounds in the other units. -/
def convBounds (us : List Unit') (bs : List Bound) : List Bound :=
  List.zipWith (fun u b => ⟨u.conv b.lo, u.conv b.hi⟩) us bs

/-- An individual with its values in the other units. -/
def inUnits (us : List Unit') (i : Individual) : Individual := ⟨i.stored, conv us i.values⟩

theorem limit1_conv (u : Unit') (hu : 0 < u.factor) (b : Bound) (x : ℚ) :
    ParamManager.limit1 ⟨u.conv b.lo, u.conv b.hi⟩ (u.conv x) = u.conv (ParamManager.limit1 b x) := by
  have hlt : ∀ a c : ℚ, u.conv a < u.conv c ↔ a < c := fun a c => by
    unfold Unit'.conv
    constructor
    · intro h; by_contra hc; push Not at hc; nlinarith
    · intro h; nlinarith
  have hle : ∀ a c : ℚ, u.conv a ≤ u.conv c ↔ a ≤ c := fun a c => by
    rw [← not_lt, ← not_lt, hlt]
  have h2 : ∀ a c : ℚ, 2 * u.conv a - u.conv c = u.conv (2 * a - c) := fun a c => by unfold Unit'.conv; ring
  have hmin : ∀ a c : ℚ, min (u.conv a) (u.conv c) = u.conv (min a c) := fun a c => by
    rcases le_total a c with h | h
    · rw [min_eq_left h, min_eq_left ((hle _ _).2 h)]
    · rw [min_eq_right h, min_eq_right ((hle _ _).2 h)]
  have hmax : ∀ a c : ℚ, max (u.conv a) (u.conv c) = u.conv (max a c) := fun a c => by
    rcases le_total a c with h | h
    · rw [max_eq_right h, max_eq_right ((hle _ _).2 h)]
    · rw [max_eq_left h, max_eq_left ((hle _ _).2 h)]
  have hif : ∀ (p : Prop) [Decidable p] (a c : ℚ), (if p then u.conv a else u.conv c) = u.conv (if p then a else c) :=
    fun p _ a c => by split <;> rfl
  unfold ParamManager.limit1
  simp only [hlt, h2, hif, gt_iff_lt, hmax, hmin]

theorem limit_conv (us : List Unit') (hu : ∀ u ∈ us, 0 < u.factor) : ∀ (bs : List Bound) (vs : List ℚ),
    ParamManager.limit (convBounds us bs) (conv us vs) = conv us (ParamManager.limit bs vs) := by
  unfold ParamManager.limit convBounds conv
  induction us with
  | nil => intros; simp
  | cons u us ih =>
    intro bs vs
    cases bs with
    | nil => simp
    | cons b bs =>
      cases vs with
      | nil => simp
      | cons v vs =>
        simp only [List.zipWith_cons_cons]
        rw [limit1_conv u (hu u (by simp)), ih (fun u h => hu u (by simp [h]))]

theorem donor_conv (us : List Unit') (F : ℚ) (b x y : Individual) :
    (donor (inUnits us b) (inUnits us x) (inUnits us y) F).values = conv us (donor b x y F).values := by
  unfold donor Individual.add Individual.scale Individual.sub Individual.spawn inUnits conv
  dsimp only
  generalize b.values = bs
  generalize x.values = xs
  generalize y.values = ys
  induction us generalizing bs xs ys with
  | nil => simp
  | cons u us ih =>
    cases bs with
    | nil => simp
    | cons b bs =>
      cases xs with
      | nil => simp
      | cons x xs =>
        cases ys with
        | nil => simp
        | cons y ys =>
          simp only [List.zipWith_cons_cons, List.map_cons]
          rw [ih]
          congr 1
          unfold Unit'.conv; ring

theorem conv_length (us : List Unit') (vs : List ℚ) (h : vs.length = us.length) : (conv us vs).length = us.length := by
  simp [conv, h]

theorem conv_get (us : List Unit') (vs : List ℚ) (h : vs.length = us.length) (k : ℕ) (hk : k < us.length) :
    (conv us vs)[k]? = some (us[k].conv vs[k]) := by
  simp [conv, hk, h]

theorem crossoverWith_length {α β : Type} [Inhabited α] [LT β] [DecidableLT β] (CR : β) (Nd j : ℕ) (u : ℕ → β)
    (parent mutant : List α) : (crossoverWith CR Nd j u parent mutant).length = mutant.length := by
  unfold crossoverWith
  generalize List.range Nd = l
  induction l generalizing mutant with
  | nil => rfl
  | cons k l ih =>
    rw [List.foldl_cons, ih]
    split
    · rfl
    · split
      · rw [List.length_set]
      · rfl

theorem crossoverWith_get {α β : Type} [Inhabited α] [LT β] [DecidableLT β] (CR : β) (n j : ℕ) (u : ℕ → β)
    (parent mutant : List α) (k : ℕ) : (crossoverWith CR n j u parent mutant)[k]? =
      if k < n ∧ k < mutant.length ∧ k ≠ j ∧ CR < u k then some (parent.getD k default) else mutant[k]? :=
  crossover_foldl CR j u parent n mutant k

theorem crossover_conv (us : List Unit') (CR : ℚ) (d : Draws) (parent mutant : List ℚ) (hp : parent.length = us.length)
    (hm : mutant.length = us.length) :
    crossover CR us.length d (conv us parent) (conv us mutant) = conv us (crossover CR us.length d parent mutant) := by
  have hlen : (crossover CR us.length d parent mutant).length = us.length := by
    rw [crossover, crossoverWith_length, hm]
  apply List.ext_getElem?
  intro k
  by_cases hk : k < us.length
  · rw [conv_get us _ hlen k hk]
    have h1 : (crossover CR us.length d parent mutant)[k]? =
        some ((crossover CR us.length d parent mutant)[k]'(by omega)) := List.getElem?_eq_getElem _
    unfold crossover at h1 ⊢
    rw [crossoverWith_get] at h1 ⊢
    rw [conv_length us _ hm]
    rw [hm] at h1
    split at h1
    · rename_i hc
      rw [if_pos hc]
      rw [Option.some.injEq] at h1
      rw [← h1, List.getD_eq_getElem?_getD, conv_get us _ hp k hk, List.getD_eq_getElem?_getD,
        List.getElem?_eq_getElem (by omega)]
      rfl
    · rename_i hc
      rw [if_neg hc, conv_get us _ hm k hk]
      rw [List.getElem?_eq_getElem (by omega), Option.some.injEq] at h1
      rw [h1]
  · rw [List.getElem?_eq_none, List.getElem?_eq_none]
    · rw [conv_length us _ hlen]; omega
    · unfold crossover; rw [crossoverWith_length, conv_length us _ hm]; omega

theorem donor_length_n (b x y : Individual) (F : ℚ) (n : ℕ) (hb : b.values.length = n) (hx : x.values.length = n)
    (hy : y.values.length = n) : (donor b x y F).values.length = n := by
  simp [donor, Individual.add, Individual.scale, Individual.sub, Individual.spawn, hb, hx, hy]

theorem challenger_length_n (c : Config) (d : Draws) (t b x y : Individual) (n : ℕ) (hc : c.bounds.length = n)
    (hb : b.values.length = n) (hx : x.values.length = n) (hy : y.values.length = n) :
    (challenger c d t b x y).length = n := by
  unfold challenger ParamManager.limit crossover
  rw [List.length_zipWith, crossoverWith_length, donor_length_n b x y d.F n hb hx hy, hc, Nat.min_self]

theorem challenger_conv (us : List Unit') (hu : ∀ u ∈ us, 0 < u.factor) (c c' : Config)
    (hb : c.bounds.length = us.length) (hb' : c'.bounds = convBounds us c.bounds) (hCR : c'.CR = c.CR) (d : Draws)
    (t b x y : Individual) (ht : t.values.length = us.length) (hbv : b.values.length = us.length)
    (hx : x.values.length = us.length) (hy : y.values.length = us.length) :
    challenger c' d (inUnits us t) (inUnits us b) (inUnits us x) (inUnits us y) =
      conv us (challenger c d t b x y) := by
  have hl : c'.bounds.length = us.length := by rw [hb', convBounds, List.length_zipWith, hb, Nat.min_self]
  unfold challenger
  rw [donor_conv, hl, hb, hCR, hb']
  have : (inUnits us t).values = conv us t.values := rfl
  rw [this, crossover_conv us c.CR d _ _ ht (donor_length_n b x y d.F _ hbv hx hy), limit_conv us hu]

/-- The score of a finished evaluation does not depend on the values. -/
theorem finishEval_stored (v : List ℚ) (r : Individual.EvalResult) :
    (((Individual.spawn v).finishEval 0 r).1.stored = match r with | .done x => x | .failed => some (.fin (-1))) ∧
      ((Individual.spawn v).finishEval 0 r).1.values = v := by
  cases r <;> exact ⟨rfl, rfl⟩

/-- C92: a run does not depend on the units in which parameters are measured: with bounds, constraints, initial
population and evaluation function expressed in other units (and from other zeros), every execution leads, with
the same schedule and random draws, to the same population expressed in those units, with the same scores. -/
theorem C92_units (us : List Unit') (hu : ∀ u ∈ us, 0 < u.factor) (c c' : Config)
    (hb : c.bounds.length = us.length) (hb' : c'.bounds = convBounds us c.bounds) (hCR : c'.CR = c.CR)
    (hx : c'.xSSE = c.xSSE)
    (hcon : ∀ v, v.length = us.length → ParamManager.passesConstraints c'.names c'.constraints (conv us v) =
      ParamManager.passesConstraints c.names c.constraints v)
    (idx : ℕ → ℕ × ℕ × ℕ × ℕ) (draws : ℕ → Draws)
    (eval eval' : ℕ → List ℚ → Option PyFloat → Individual.EvalResult)
    (heval : ∀ n v x, v.length = us.length → eval' n (conv us v) x = eval n v x)
    (pop₀ : ℕ → Individual) (hpop : ∀ k, (pop₀ k).values.length = us.length) (acts : List Act) :
    (run (params c' idx draws eval') (init fun k => inUnits us (pop₀ k)) acts).map Sys.pop =
      (run (params c idx draws eval) (init pop₀) acts).map fun s k => inUnits us (s.pop k) := by
  let R : Individual → Individual → Prop := fun i i' => i.values.length = us.length ∧ i' = inUnits us i
  have hP : ParamsRel R (params c idx draws eval) (params c' idx draws eval') := by
    refine ⟨?_, hx.symm, fun _ => rfl, fun _ => rfl, fun _ => rfl, fun _ => rfl, ?_⟩
    · rintro a _ b _ ⟨-, rfl⟩ ⟨-, rfl⟩; rfl
    · rintro n t _ b _ x _ y _ ⟨ht, rfl⟩ ⟨hbv, rfl⟩ ⟨hxv, rfl⟩ ⟨hyv, rfl⟩
      show OutRel R (trial c (draws n) (eval n) t b x y) (trial c' (draws n) (eval' n) _ _ _ _)
      have hlen := challenger_length_n c (draws n) t b x y us.length hb hbv hxv hyv
      unfold trial
      rw [challenger_conv us hu c c' hb hb' hCR (draws n) t b x y ht hbv hxv hyv]
      dsimp only
      rw [hcon _ hlen, heval _ _ _ hlen, hx]
      have hS : (inUnits us t).SSE = t.SSE := rfl
      rw [hS]
      generalize challenger c (draws n) t b x y = v at hlen
      split
      · generalize eval n v (if c.xSSE = true then some t.SSE else none) = r
        have e1 := finishEval_stored v r
        have e2 := finishEval_stored (conv us v) r
        have hi : ((Individual.spawn (conv us v)).finishEval 0 r).1 =
            inUnits us ((Individual.spawn v).finishEval 0 r).1 := by cases r <;> rfl
        rw [hi]
        have hbool : (inUnits us ((Individual.spawn v).finishEval 0 r).1).toBool =
          ((Individual.spawn v).finishEval 0 r).1.toBool := rfl
        rw [hbool]
        split
        · exact .evaluated _ _ ⟨by rw [e1.2]; exact hlen, rfl⟩
        · exact .fatal
      · exact .failedConstraints
  have h := run_rel hP acts (init_rel (R := R) (pop := pop₀) (pop' := fun k => inUnits us (pop₀ k))
    fun k => ⟨hpop k, rfl⟩)
  cases h1 : run (params c idx draws eval) (init pop₀) acts with
  | none =>
    cases h2 : run (params c' idx draws eval') (init fun k => inUnits us (pop₀ k)) acts with
    | none => rfl
    | some s' => rw [h1, h2] at h; exact h.elim
  | some s =>
    cases h2 : run (params c' idx draws eval') (init fun k => inUnits us (pop₀ k)) acts with
    | none => rw [h1, h2] at h; exact h.elim
    | some s' =>
      rw [h1, h2] at h
      simp only [Option.map_some, Option.some.injEq]
      funext k
      exact (h.pop k).2

/-- C92: likewise the values of a new individual made from numbers between 0 and 1 (as in the initial population). -/
theorem C92_initial (us : List Unit') (bs : List Bound) (v : List ℚ) :
    ParamManager.fromUnity (convBounds us bs) v = conv us (ParamManager.fromUnity bs v) := by
  unfold ParamManager.fromUnity convBounds conv
  induction us generalizing bs v with
  | nil => simp
  | cons u us ih =>
    cases bs with
    | nil => simp
    | cons b bs =>
      cases v with
      | nil => simp
      | cons x v =>
        simp only [List.zipWith_cons_cons]
        rw [ih]
        congr 1
        unfold ParamManager.fromUnity1 Bound.scale Unit'.conv; ring

/-! ## Order of parameters -/

theorem zipWith_ofFn {α β γ : Type} {n : ℕ} (f : α → β → γ) (a : Fin n → α) (b : Fin n → β) :
    List.zipWith f (List.ofFn a) (List.ofFn b) = List.ofFn fun k => f (a k) (b k) := by
  apply List.ext_getElem
  · simp
  · intro k h1 h2; simp

theorem donor_ofFn {n : ℕ} (b x y : Individual) (vb vx vy : Fin n → ℚ) (hb : b.values = List.ofFn vb)
    (hx : x.values = List.ofFn vx) (hy : y.values = List.ofFn vy) (F : ℚ) :
    (donor b x y F).values = List.ofFn fun k => vb k + (vx k - vy k) * F := by
  unfold donor Individual.add Individual.scale Individual.sub Individual.spawn
  dsimp only
  rw [hb, hx, hy, zipWith_ofFn, List.map_ofFn, zipWith_ofFn]
  rfl

theorem crossover_ofFn {n : ℕ} (CR : ℚ) (d : Draws) (p m : Fin n → ℚ) :
    crossover CR n d (List.ofFn p) (List.ofFn m) =
      List.ofFn fun k => if (k : ℕ) ≠ d.j ∧ CR < d.u k then p k else m k := by
  apply List.ext_getElem?
  intro k
  unfold crossover
  rw [crossoverWith_get]
  by_cases hk : k < n
  · by_cases hc : k ≠ d.j ∧ CR < d.u k
    · rw [if_pos ⟨hk, by simpa using hk, hc⟩]
      simp [hk, hc]
    · rw [if_neg (fun h => hc h.2.2)]
      simp only [List.getElem?_ofFn, hk, dite_true]
      rw [if_neg hc]
  · rw [if_neg (fun h => hk h.1)]
    simp [hk]

theorem paramsOf_unique (names names' : List String) (values values' : List ℚ) (hnd : names.Nodup) (hnd' : names'.Nodup)
    (hl : values.length = names.length) (hl' : values'.length = names'.length)
    (h : ∀ (nm : String) (x : ℚ), (∃ k : ℕ, names[k]? = some nm ∧ values[k]? = some x) ↔
      ∃ k : ℕ, names'[k]? = some nm ∧ values'[k]? = some x) :
    ParamManager.paramsOf names values = ParamManager.paramsOf names' values' := by
  have h1 := C07_params_dict names values hnd hl
  have h2 := C07_params_dict names' values' hnd' hl'
  funext nm
  apply Option.ext
  intro x
  rw [h1 nm x, h2 nm x]
  exact h nm x

theorem paramsOf_perm {n : ℕ} (σ : Equiv.Perm (Fin n)) (nm : Fin n → String) (hnm : Function.Injective nm)
    (v : Fin n → ℚ) :
    ParamManager.paramsOf (List.ofFn (nm ∘ σ)) (List.ofFn (v ∘ σ)) =
      ParamManager.paramsOf (List.ofFn nm) (List.ofFn v) := by
  refine paramsOf_unique _ _ _ _ (List.nodup_ofFn.2 (hnm.comp σ.injective)) (List.nodup_ofFn.2 hnm) (by simp) (by simp) ?_
  intro s x
  simp only [List.getElem?_ofFn]
  constructor
  · rintro ⟨k, h1, h2⟩
    by_cases hk : k < n
    · refine ⟨σ ⟨k, hk⟩, ?_⟩
      simpa [hk] using And.intro h1 h2
    · simp [hk] at h1
  · rintro ⟨k, h1, h2⟩
    by_cases hk : k < n
    · refine ⟨σ.symm ⟨k, hk⟩, ?_⟩
      simpa [hk] using And.intro h1 h2
    · simp [hk] at h1

theorem passes_of_params (names names' : List String) (cs : List (ParamManager.Dict → Bool)) (v v' : List ℚ)
    (h : ParamManager.paramsOf names v = ParamManager.paramsOf names' v') :
    ParamManager.passesConstraints names cs v = ParamManager.passesConstraints names' cs v' := by
  unfold ParamManager.passesConstraints
  rw [h]

/-- Two individuals with the same score, whose values are `v` in the orders of the two runs. -/
def SameUpToOrder {n : ℕ} (σ : Equiv.Perm (Fin n)) (i i' : Individual) : Prop :=
  i'.stored = i.stored ∧ ∃ v : Fin n → ℚ, i.values = List.ofFn v ∧ i'.values = List.ofFn (v ∘ σ)

/-- C92: a run does not depend on the order in which the parameters are listed: with names, bounds, initial values and
random draws reordered, and the evaluation function called with the reordered values, every execution with the same
schedule leads to the same population with its values reordered. -/
theorem C92_order {n : ℕ} (σ : Equiv.Perm (Fin n)) (c c' : Config) (nm : Fin n → String) (hnm : Function.Injective nm)
    (b : Fin n → Bound) (hn : c.names = List.ofFn nm) (hn' : c'.names = List.ofFn (nm ∘ σ))
    (hb : c.bounds = List.ofFn b) (hb' : c'.bounds = List.ofFn (b ∘ σ))
    (hcon : c'.constraints = c.constraints) (hCR : c'.CR = c.CR) (hx : c'.xSSE = c.xSSE)
    (idx : ℕ → ℕ × ℕ × ℕ × ℕ) (draws draws' : ℕ → Draws) (hF : ∀ m, (draws' m).F = (draws m).F)
    (hj : ∀ m (k : Fin n), (k : ℕ) = (draws' m).j ↔ (σ k : ℕ) = (draws m).j)
    (hu : ∀ m (k : Fin n), (draws' m).u k = (draws m).u (σ k))
    (eval eval' : ℕ → List ℚ → Option PyFloat → Individual.EvalResult)
    (heval : ∀ m (v : Fin n → ℚ) x, eval' m (List.ofFn (v ∘ σ)) x = eval m (List.ofFn v) x)
    (pop₀ pop₀' : ℕ → Individual) (hpop : ∀ k, SameUpToOrder σ (pop₀ k) (pop₀' k)) (acts : List Act) (s : Sys Individual)
    (hs : run (params c idx draws eval) (init pop₀) acts = some s) :
    ∃ s', run (params c' idx draws' eval') (init pop₀') acts = some s' ∧ ∀ k, SameUpToOrder σ (s.pop k) (s'.pop k) := by
  have hP : ParamsRel (SameUpToOrder σ) (params c idx draws eval) (params c' idx draws' eval') := by
    have hSSE : ∀ i i', SameUpToOrder σ i i' → i'.SSE = i.SSE := fun i i' h => by
      unfold Individual.SSE; rw [h.1]
    refine ⟨?_, hx.symm, fun _ => rfl, fun _ => rfl, fun _ => rfl, fun _ => rfl, ?_⟩
    · intro a a' b b' ha hb
      show a.lt b = a'.lt b'
      unfold Individual.lt Individual.toFloat
      rw [hSSE a a' ha, hSSE b b' hb]
    · intro m t t' i i' x x' y y' ht hi hxx hyy
      have hts := hSSE t t' ht
      obtain ⟨-, vt, ht1, ht2⟩ := ht
      obtain ⟨-, vb, hb1, hb2⟩ := hi
      obtain ⟨-, vx, hx1, hx2⟩ := hxx
      obtain ⟨-, vy, hy1, hy2⟩ := hyy
      show OutRel _ (trial c (draws m) (eval m) t i x y) (trial c' (draws' m) (eval' m) t' i' x' y')
      obtain ⟨w, hw⟩ : ∃ w : Fin n → ℚ, w = fun k => ParamManager.limit1 (b k)
        (if (k : ℕ) ≠ (draws m).j ∧ c.CR < (draws m).u k then vt k else vb k + (vx k - vy k) * (draws m).F) := ⟨_, rfl⟩
      have h1 : challenger c (draws m) t i x y = List.ofFn w := by
        unfold challenger ParamManager.limit
        rw [donor_ofFn i x y vb vx vy hb1 hx1 hy1, hb, List.length_ofFn, ht1, crossover_ofFn, zipWith_ofFn, hw]
      have h2 : challenger c' (draws' m) t' i' x' y' = List.ofFn (w ∘ σ) := by
        unfold challenger ParamManager.limit
        rw [donor_ofFn i' x' y' (vb ∘ σ) (vx ∘ σ) (vy ∘ σ) hb2 hx2 hy2, hb', List.length_ofFn, ht2, crossover_ofFn,
          zipWith_ofFn, hw]
        congr 1
        funext k
        simp only [Function.comp, hCR, hF, hu, ne_eq, hj]
      unfold trial
      rw [h1, h2, hts, hx]
      dsimp only
      rw [heval, hcon, hn, hn', passes_of_params _ _ _ _ _ (paramsOf_perm σ nm hnm w)]
      split
      · generalize eval m (List.ofFn w) (if c.xSSE = true then some t.SSE else none) = r
        have e1 := finishEval_stored (List.ofFn w) r
        have e2 := finishEval_stored (List.ofFn (w ∘ σ)) r
        have hst : ((Individual.spawn (List.ofFn (w ∘ σ))).finishEval 0 r).1.stored =
            ((Individual.spawn (List.ofFn w)).finishEval 0 r).1.stored := by cases r <;> rfl
        have hbool : ((Individual.spawn (List.ofFn (w ∘ σ))).finishEval 0 r).1.toBool =
            ((Individual.spawn (List.ofFn w)).finishEval 0 r).1.toBool := by
          unfold Individual.toBool; rw [hst]
        rw [hbool]
        split
        · exact .evaluated _ _ ⟨hst, w, e1.2, e2.2⟩
        · exact .fatal
      · exact .failedConstraints
  have h := run_rel hP acts (init_rel hpop)
  rw [hs] at h
  cases h2 : run (params c' idx draws' eval') (init pop₀') acts with
  | none => rw [h2] at h; exact h.elim
  | some s' => rw [h2] at h; exact ⟨s', rfl, h.pop⟩

/-- C92: constraints in the other units: each gets the dict of values converted back. -/
theorem C92_constraints (names : List String) (hnd : names.Nodup) (us : List Unit') (hl : us.length = names.length)
    (cs cs' : List (ParamManager.Dict → Bool))
    (hcs : List.Forall₂ (fun f f' => ∀ d d' : ParamManager.Dict,
      (∀ k (hk : k < us.length), d' (names[k]'(hl ▸ hk)) = (d (names[k]'(hl ▸ hk))).map us[k].conv) → f' d' = f d) cs cs')
    (v : List ℚ) (hv : v.length = us.length) :
    ParamManager.passesConstraints names cs' (conv us v) = ParamManager.passesConstraints names cs v := by
  have hd : ∀ k (hk : k < us.length), ParamManager.paramsOf names (conv us v) (names[k]'(hl ▸ hk)) =
      (ParamManager.paramsOf names v (names[k]'(hl ▸ hk))).map us[k].conv := by
    intro k hk
    have h1 := C07_params_dict names v hnd (by omega)
    have h2 := C07_params_dict names (conv us v) hnd (by rw [conv_length us v hv, hl])
    have e1 : ParamManager.paramsOf names v (names[k]'(hl ▸ hk)) = some (v[k]'(by omega)) :=
      (h1 _ _).2 ⟨k, List.getElem?_eq_getElem _, List.getElem?_eq_getElem _⟩
    have e2 : ParamManager.paramsOf names (conv us v) (names[k]'(hl ▸ hk)) = some (us[k].conv (v[k]'(by omega))) :=
      (h2 _ _).2 ⟨k, List.getElem?_eq_getElem _, conv_get us v hv k hk⟩
    rw [e1, e2]; rfl
  have hgo : ParamManager.passesConstraints.go (ParamManager.paramsOf names (conv us v)) cs' =
      ParamManager.passesConstraints.go (ParamManager.paramsOf names v) cs := by
    induction hcs with
    | nil => rfl
    | cons hf _ ih =>
      unfold ParamManager.passesConstraints.go
      rw [hf _ _ hd, ih]
  have hemp : cs'.isEmpty = cs.isEmpty := by cases hcs <;> rfl
  unfold ParamManager.passesConstraints
  rw [hemp]
  dsimp only
  rw [hgo]

/-! ## Scores -/

/-- An individual with its score on another scale. -/
def rescored (g : PyFloat → PyFloat) (i : Individual) : Individual := ⟨i.stored.map g, i.values⟩

/-- A result on another scale. -/
def rescoredResult (g : PyFloat → PyFloat) : Individual.EvalResult → Individual.EvalResult
  | .done x => .done (x.map g)
  | .failed => .failed

/-- A change of scale for scores: strictly increasing, and it keeps unusable scores (negative ones, infinity, NaN) as they
are. -/
structure Monotone' (g : PyFloat → PyFloat) : Prop where
  lt : ∀ x y, PyFloat.le .zero x = true → PyFloat.le .zero y = true → (g x).lt (g y) = x.lt y
  nonneg : ∀ x, PyFloat.le .zero x = true → PyFloat.le .zero (g x) = true
  neg : ∀ x, x.lt .zero = true → g x = x
  pinf : g .pinf = .pinf
  nan : g .nan = .nan

theorem le_or_lt_or_nan (x : PyFloat) : PyFloat.le .zero x = true ∨ x.lt .zero = true ∨ x = .nan := by
  cases x with
  | nan => simp
  | pinf => left; rfl
  | ninf => right; left; rfl
  | fin q =>
    rcases le_or_gt 0 q with h | h
    · left; simpa [PyFloat.le, PyFloat.lt, PyFloat.eq, PyFloat.zero, ← le_iff_lt_or_eq] using h
    · right; left; simpa [PyFloat.lt, PyFloat.zero] using h

theorem not_lt_of_le (x : PyFloat) (h : PyFloat.le .zero x = true) : x.lt .zero = false := by
  cases x with
  | nan => simp [PyFloat.le, PyFloat.lt, PyFloat.eq, PyFloat.zero] at h
  | pinf => rfl
  | ninf => simp [PyFloat.le, PyFloat.lt, PyFloat.eq, PyFloat.zero] at h
  | fin q => simpa [PyFloat.le, PyFloat.lt, PyFloat.eq, PyFloat.zero, ← le_iff_lt_or_eq] using h

theorem rescored_SSE {g : PyFloat → PyFloat} (hg : Monotone' g) (i : Individual) : (rescored g i).SSE = g i.SSE := by
  unfold Individual.SSE rescored
  cases hs : i.stored with
  | none => simp [hg.pinf]
  | some x =>
    simp only [Option.map_some]
    rcases le_or_lt_or_nan x with h | h | h
    · rw [if_neg (by simp [not_lt_of_le _ (hg.nonneg x h)]), if_neg (by simp [not_lt_of_le _ h])]
    · rw [hg.neg x h, if_pos h, hg.pinf]
    · subst h; rw [hg.nan, if_neg (by simp [PyFloat.lt]), hg.nan]

theorem SSE_usable (i : Individual) : PyFloat.le .zero i.SSE = true ∨ i.SSE = .nan := by
  unfold Individual.SSE
  cases i.stored with
  | none => left; rfl
  | some x =>
    dsimp only
    rcases le_or_lt_or_nan x with h | h | h
    · left; rw [if_neg (by simp [not_lt_of_le _ h])]; exact h
    · left; rw [if_pos h]; rfl
    · right; subst h; rfl

theorem toFloat_eq_SSE (i : Individual) : i.toFloat = i.SSE := by
  unfold Individual.toFloat
  rcases SSE_usable i with h | h
  · rw [if_neg (by simp [not_lt_of_le _ h])]
  · rw [h]; rfl

theorem rescored_lt {g : PyFloat → PyFloat} (hg : Monotone' g) (i j : Individual) :
    (rescored g i).lt (rescored g j) = i.lt j := by
  unfold Individual.lt
  rw [toFloat_eq_SSE, toFloat_eq_SSE, toFloat_eq_SSE, toFloat_eq_SSE, rescored_SSE hg, rescored_SSE hg]
  have nl : ∀ x : PyFloat, PyFloat.nan.lt x = false := fun x => by cases x <;> rfl
  have nr : ∀ x : PyFloat, x.lt PyFloat.nan = false := fun x => by cases x <;> rfl
  rcases SSE_usable i with h | h
  · rcases SSE_usable j with h' | h'
    · exact hg.lt _ _ h h'
    · rw [h', hg.nan, nr, nr]
  · rw [h, hg.nan, nl, nl]

theorem rescored_toBool {g : PyFloat → PyFloat} (hg : Monotone' g) (i : Individual) :
    (rescored g i).toBool = i.toBool := by
  unfold Individual.toBool rescored
  cases hs : i.stored with
  | none => rfl
  | some x =>
    simp only [Option.map_some]
    rcases le_or_lt_or_nan x with h | h | h
    · have h2 := hg.nonneg x h
      have hn : ∀ y, PyFloat.le .zero y = true → y.isNaN = false := fun y hy => by
        cases y with
        | nan => simp [PyFloat.le, PyFloat.lt, PyFloat.eq, PyFloat.zero] at hy
        | _ => rfl
      rw [hn _ h, hn _ h2, h, h2]
    · rw [hg.neg x h]
    · subst h; rw [hg.nan]

/-- C93: only the ranking of scores matters to challenges: when the evaluation function returns its scores on another,
strictly increasing scale, every execution leads, with the same schedule and random draws, to the same population
with the scores on that scale. -/
theorem C93_ranking (g : PyFloat → PyFloat) (hg : Monotone' g) (c : Config) (idx : ℕ → ℕ × ℕ × ℕ × ℕ) (draws : ℕ → Draws)
    (eval eval' : ℕ → List ℚ → Option PyFloat → Individual.EvalResult)
    (heval : ∀ n v x, eval' n v (x.map g) = rescoredResult g (eval n v x)) (pop₀ : ℕ → Individual) (acts : List Act) :
    (run (params c idx draws eval') (init fun k => rescored g (pop₀ k)) acts).map Sys.pop =
      (run (params c idx draws eval) (init pop₀) acts).map fun s k => rescored g (s.pop k) := by
  let R : Individual → Individual → Prop := fun i i' => i' = rescored g i
  have hP : ParamsRel R (params c idx draws eval) (params c idx draws eval') := by
    refine ⟨?_, rfl, fun _ => rfl, fun _ => rfl, fun _ => rfl, fun _ => rfl, ?_⟩
    · rintro a _ b _ rfl rfl; exact (rescored_lt hg a b).symm
    · rintro n t _ b _ x _ y _ rfl rfl rfl rfl
      show OutRel R (trial c (draws n) (eval n) t b x y) (trial c (draws n) (eval' n) _ _ _ _)
      have hch : challenger c (draws n) (rescored g t) (rescored g b) (rescored g x) (rescored g y) =
          challenger c (draws n) t b x y := rfl
      unfold trial
      rw [hch, rescored_SSE hg]
      have harg : (if c.xSSE = true then some (g t.SSE) else none) =
          (if c.xSSE = true then some t.SSE else none).map g := by split <;> rfl
      dsimp only
      rw [harg, heval]
      generalize challenger c (draws n) t b x y = v
      split
      · generalize eval n v (if c.xSSE = true then some t.SSE else none) = r
        have hi : ((Individual.spawn v).finishEval 0 (rescoredResult g r)).1 =
            rescored g ((Individual.spawn v).finishEval 0 r).1 := by
          cases r with
          | done x => rfl
          | failed =>
            simp only [rescoredResult, Individual.finishEval, Individual.setSSE, rescored, Option.map_some,
              Individual.spawn]
            rw [hg.neg _ (by decide +kernel)]
        rw [hi, rescored_toBool hg]
        split
        · exact .evaluated _ _ rfl
        · exact .fatal
      · exact .failedConstraints
  have h := run_rel hP acts (init_rel (R := R) (pop := pop₀) (pop' := fun k => rescored g (pop₀ k)) fun k => rfl)
  cases h1 : run (params c idx draws eval) (init pop₀) acts with
  | none =>
    cases h2 : run (params c idx draws eval') (init fun k => rescored g (pop₀ k)) acts with
    | none => rfl
    | some s' => rw [h1, h2] at h; exact h.elim
  | some s =>
    cases h2 : run (params c idx draws eval') (init fun k => rescored g (pop₀ k)) acts with
    | none => rw [h1, h2] at h; exact h.elim
    | some s' =>
      rw [h1, h2] at h
      simp only [Option.map_some, Option.some.injEq]
      funext k
      exact h.pop k

/-! ## Examples -/

/-- Degrees Fahrenheit for degrees Celsius, and millivolts for volts. -/
def demoUnits : List Unit' := [⟨9 / 5, 32⟩, ⟨1000, 0⟩]

/-- The example settings in these units. -/
def cfgUnits : Config where
  bounds := convBounds demoUnits cfg.bounds
  names := cfg.names
  constraints := [fun p => match p "a", p "b" with
    | some a, some b => decide ((a - 32) * (5 / 9) ≤ b / 1000 + 4)
    | _, _ => false]
  CR := cfg.CR
  xSSE := cfg.xSSE

theorem demoUnits_pos : ∀ u ∈ demoUnits, 0 < u.factor := by
  intro u hu; simp [demoUnits] at hu; rcases hu with rfl | rfl <;> norm_num

theorem demoUnits_constraints (v : List ℚ) (hv : v.length = demoUnits.length) :
    ParamManager.passesConstraints cfgUnits.names cfgUnits.constraints (conv demoUnits v) =
      ParamManager.passesConstraints cfg.names cfg.constraints v := by
  refine C92_constraints cfg.names (by decide) demoUnits rfl cfg.constraints cfgUnits.constraints ?_ v hv
  refine .cons ?_ .nil
  intro d d' h
  have ha : d' "a" = (d "a").map (Unit'.conv ⟨9 / 5, 32⟩) := h 0 (by decide)
  have hb : d' "b" = (d "b").map (Unit'.conv ⟨1000, 0⟩) := h 1 (by decide)
  dsimp only
  rw [ha, hb]
  cases d "a" with
  | none => rfl
  | some a =>
    cases d "b" with
    | none => rfl
    | some b =>
      simp only [Option.map_some, Unit'.conv]
      congr 1
      apply propext
      constructor <;> intro h <;> linarith

/-- The constraint of the example in other units (see `demoUnits_constraints`), applied to one combination. -/
example : ParamManager.passesConstraints cfgUnits.names cfgUnits.constraints (conv demoUnits [5 / 2, 1 / 2]) =
    ParamManager.passesConstraints cfg.names cfg.constraints [5 / 2, 1 / 2] :=
  demoUnits_constraints [5 / 2, 1 / 2] rfl -- which applies C92_constraints

/-- Non-vacuity of C92_units and C92_constraints: the hypotheses hold for these settings, and the run in the other units
replaces member 0 by the challenger `[5/2, 1/2]` in those units. -/
example : (run (params cfgUnits (fun _ => (0, 1, 2, 3)) (fun _ => ⟨1 / 2, 0, fun _ => 3 / 4⟩)
      (fun _ _ _ => .done (some (.fin 1)))) (init fun k => inUnits demoUnits (demoPop k))
        [.issue, .grant 0, .finish 0]).map (fun s => s.pop 0) = some (ind 1 [73 / 2, 500]) := by decide +kernel

theorem demoPop_length (k : ℕ) : (demoPop k).values.length = demoUnits.length := by
  match k with
  | 0 | 1 | 2 | 3 | _ + 4 => rfl

example := C92_units demoUnits demoUnits_pos cfg cfgUnits rfl rfl rfl rfl demoUnits_constraints (fun _ => (0, 1, 2, 3))
  (fun _ => ⟨1 / 2, 0, fun _ => 3 / 4⟩) (fun _ _ _ => .done (some (.fin 1))) (fun _ _ _ => .done (some (.fin 1)))
  (fun _ _ _ _ => rfl) demoPop demoPop_length [.issue, .grant 0, .finish 0]

/-- Non-vacuity of C92_order: two parameters exchanged; draws and members exchanged too. -/
example : SameUpToOrder (Equiv.swap (0 : Fin 2) 1) (ind 5 [3, 1 / 2]) (ind 5 [1 / 2, 3]) ∧
    (∀ k : Fin 2, (k : ℕ) = (⟨1 / 2, 1, fun k => if k = 0 then 1 / 4 else 3 / 4⟩ : Draws).j ↔
      ((Equiv.swap (0 : Fin 2) 1) k : ℕ) = (⟨1 / 2, 0, fun k => if k = 0 then 3 / 4 else 1 / 4⟩ : Draws).j) ∧
    (∀ k : Fin 2, (⟨1 / 2, 1, fun k => if k = 0 then 1 / 4 else 3 / 4⟩ : Draws).u k =
      (⟨1 / 2, 0, fun k => if k = 0 then 3 / 4 else 1 / 4⟩ : Draws).u ((Equiv.swap (0 : Fin 2) 1) k)) := by
  refine ⟨⟨rfl, fun k => if k = 0 then 3 else 1 / 2, by decide +kernel, by decide +kernel⟩, by decide, by decide +kernel⟩

/-- Another scale for scores: the square. -/
def demoScale : PyFloat → PyFloat
  | .fin q => if 0 ≤ q then .fin (q * q) else .fin q
  | x => x

/-- Non-vacuity of C93_ranking. -/
theorem demoScale_monotone : Monotone' demoScale := by
  have nn : ∀ q : ℚ, PyFloat.le .zero (.fin q) = true ↔ 0 ≤ q := fun q => by
    simp [PyFloat.le, PyFloat.lt, PyFloat.eq, PyFloat.zero, ← le_iff_lt_or_eq]
  refine ⟨?_, ?_, ?_, rfl, rfl⟩
  · intro x y hx hy
    cases x with
    | nan => simp [PyFloat.le, PyFloat.lt, PyFloat.eq, PyFloat.zero] at hx
    | ninf => simp [PyFloat.le, PyFloat.lt, PyFloat.eq, PyFloat.zero] at hx
    | pinf =>
      have hp : ∀ z : PyFloat, PyFloat.pinf.lt z = false := fun z => by cases z <;> rfl
      show PyFloat.pinf.lt (demoScale y) = PyFloat.pinf.lt y
      rw [hp, hp]
    | fin p =>
      rw [nn] at hx
      cases y with
      | nan => simp [PyFloat.le, PyFloat.lt, PyFloat.eq, PyFloat.zero] at hy
      | ninf => simp [PyFloat.le, PyFloat.lt, PyFloat.eq, PyFloat.zero] at hy
      | pinf => simp [demoScale, hx, PyFloat.lt]
      | fin q =>
        rw [nn] at hy
        simp only [demoScale, hx, hy, if_true, PyFloat.lt, decide_eq_decide]
        constructor
        · intro h; by_contra h2; push Not at h2; nlinarith
        · intro h; nlinarith
  · intro x hx
    cases x with
    | fin q =>
      rw [nn] at hx
      simp only [demoScale, hx, if_true]
      rw [nn]; positivity
    | _ => exact hx
  · intro x hx
    cases x with
    | fin q =>
      simp only [PyFloat.lt, PyFloat.zero, decide_eq_true_eq] at hx
      simp [demoScale, not_le.2 hx]
    | _ => rfl

/-- Settings with the two parameters exchanged. -/
def cfgSwapped : Config where
  bounds := [⟨-1, 1⟩, ⟨0, 10⟩]
  names := ["b", "a"]
  constraints := cfg.constraints
  CR := cfg.CR
  xSSE := cfg.xSSE

/-- The example population with the values exchanged. -/
def demoSwapped : ℕ → Individual := fun k =>
  [ind 5 [1 / 2, 3], ind 4 [0, 2], ind 7 [1, 3], ind 8 [0, 2]].getD k (ind 9 [0, 0])

/-- The score is the first parameter of the original order. -/
example := C92_order (Equiv.swap (0 : Fin 2) 1) cfg cfgSwapped ![("a" : String), "b"] (by decide) ![⟨0, 10⟩, ⟨-1, 1⟩] rfl
  (by decide +kernel) rfl (by decide +kernel) rfl rfl rfl (fun _ => (0, 1, 2, 3))
  (fun _ => ⟨1 / 2, 0, fun k => if k = 0 then 3 / 4 else 1 / 4⟩)
  (fun _ => ⟨1 / 2, 1, fun k => if k = 0 then 1 / 4 else 3 / 4⟩) (fun _ => rfl) (fun _ => by decide)
  (fun _ => by decide +kernel) (fun _ v _ => .done (some (.fin (v.getD 0 0))))
  (fun _ v _ => .done (some (.fin (v.getD 1 0)))) (fun _ v _ => by simp [List.ofFn_succ])
  demoPop demoSwapped (fun k => by
    match k with
    | 0 => exact ⟨rfl, ![3, 1 / 2], by decide +kernel, by decide +kernel⟩
    | 1 => exact ⟨rfl, ![2, 0], by decide +kernel, by decide +kernel⟩
    | 2 => exact ⟨rfl, ![3, 1], by decide +kernel, by decide +kernel⟩
    | 3 => exact ⟨rfl, ![2, 0], by decide +kernel, by decide +kernel⟩
    | _ + 4 => exact ⟨rfl, ![0, 0], by with_unfolding_all rfl, by with_unfolding_all rfl⟩)
  [.issue, .grant 0, .finish 0]
  ((run (params cfg (fun _ => (0, 1, 2, 3)) (fun _ => ⟨1 / 2, 0, fun k => if k = 0 then 3 / 4 else 1 / 4⟩)
    (fun _ v _ => .done (some (.fin (v.getD 0 0))))) (init demoPop) [.issue, .grant 0, .finish 0]).get
      (by decide +kernel)) (eq_get _)

example := C93_ranking demoScale demoScale_monotone cfg (fun _ => (0, 1, 2, 3))
  (fun _ => ⟨1 / 2, 0, fun _ => 3 / 4⟩) (fun _ v _ => .done (some (.fin (v.getD 0 0))))
  (fun _ v _ => .done (some (demoScale (.fin (v.getD 0 0))))) (fun _ _ _ => rfl) demoPop [.issue, .grant 0, .finish 0]

end Challenge
end Ade
