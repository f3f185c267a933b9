import Verif.Model.ConstraintSets
import Verif.Props.Constraints
import Verif.Props.ParamManager

/-!
# C124: which constraints are in force
-/

set_option autoImplicit false

namespace Ade
namespace ConstraintSets

open ParamManager (Dict Obj setConstraints)
open Constraints (Registered passesLazy)

/-- The population that an event is about, if it gives it constraints. -/
def Gives (m : ℕ) : Event → Prop
  | .construct m' _ => m' = m
  | .set m' _ => m' = m
  | .attrAppend m' _ => m' = m
  | _ => False

theorem passesList_iff (params : Dict) (fs : List (Dict → Bool)) :
    passesList params fs = true ↔ ∀ f ∈ fs, f params = true := by
  induction fs with
  | nil => simp [passesList]
  | cons f fs ih => cases hf : f params <;> simp [passesList, hf, ih]

theorem ifEmpty_iff (params : Dict) (fs : List (Dict → Bool)) :
    (if fs.isEmpty then true else passesList params fs) = true ↔ ∀ f ∈ fs, f params = true := by
  cases fs with
  | nil => simp
  | cons f fs =>
    rw [if_neg (by simp)]
    exact passesList_iff params (f :: fs)

theorem put_self {α : Type} (g : ℕ → α) (k : ℕ) (a : α) : put g k a k = a := by simp [put]

theorem put_ne {α : Type} (g : ℕ → α) (k j : ℕ) (a : α) (h : j ≠ k) : put g k a j = g j := by simp [put, h]

/-- An event that does not give constraints to a population leaves what it refers to. -/
theorem step_pops (w : World) (e : Event) (m : ℕ) (h : ¬ Gives m e) : (step w e).pops m = w.pops m := by
  cases e with
  | construct m' g => exact put_ne _ _ _ _ (fun e => h e.symm)
  | set m' args =>
    unfold step
    simp only
    cases setConstraints args with
    | ok fs => exact put_ne _ _ _ _ (fun e => h e.symm)
    | error _ => rfl
  | listAppend k f => rfl
  | contAppend k f => rfl
  | attrAppend m' f =>
    unfold step
    simp only
    cases w.pops m' with
    | own fs => exact put_ne _ _ _ _ (fun e => h e.symm)
    | list k => rfl
    | cont k => rfl
    | gen k => rfl
  | check m' params =>
    unfold step
    simp only
    cases w.pops m' <;> rfl

theorem run_pops (w : World) (evs : List Event) (m : ℕ) (h : ∀ e ∈ evs, ¬ Gives m e) :
    (run w evs).pops m = w.pops m := by
  induction evs generalizing w with
  | nil => rfl
  | cons e evs ih =>
    have := ih (step w e) fun e' he' => h e' (List.mem_cons_of_mem _ he')
    exact this.trans (step_pops w e m (h e List.mem_cons_self))

theorem own_verdict (pow10 : ℚ → ℚ) (w : World) (m : ℕ) (fs : List (Dict → Bool)) (h : w.pops m = .own fs)
    (evs : List Event) (hev : ∀ e ∈ evs, ¬ Gives m e) (params : Dict) :
    verdict pow10 (run w evs) m params = true ↔ ∀ f ∈ fs, f params = true := by
  unfold verdict
  rw [run_pops w evs m hev, h]
  exact ifEmpty_iff params fs

/-- C124: constraints installed with `setConstraints` are the ones enforced, all of them and no others, until the population is
given others: whatever happens to other populations, to lists and containers, and whatever is checked. -/
theorem C124_installed (pow10 : ℚ → ℚ) (w : World) (m : ℕ) (fs : List (Dict → Bool)) (evs : List Event)
    (hev : ∀ e ∈ evs, ¬ Gives m e) (params : Dict) :
    verdict pow10 (run (step w (.set m (fs.map .callable))) evs) m params = true ↔ ∀ f ∈ fs, f params = true := by
  refine own_verdict pow10 _ m fs ?_ evs hev params
  have : setConstraints (fs.map Obj.callable) = .ok fs := by
    unfold setConstraints
    rw [if_pos (by simp [Obj.isCallable])]
    congr 1
    induction fs with
    | nil => rfl
    | cons f fs ih => simp only [List.map_cons, List.filterMap_cons]; rw [ih]
  unfold step
  simp only [this]
  exact put_self _ _ _

/-- C124: a single function given to the constructor is the one enforced, until the population is given others. -/
theorem C124_single (pow10 : ℚ → ℚ) (w : World) (m : ℕ) (f : Dict → Bool) (evs : List Event)
    (hev : ∀ e ∈ evs, ¬ Gives m e) (params : Dict) :
    verdict pow10 (run (step w (.construct m (.function f))) evs) m params = f params := by
  have := own_verdict pow10 (step w (.construct m (.function f))) m [f] (put_self _ _ _) evs hev params
  rw [Bool.eq_iff_iff, this]
  simp

/-- C124: a call of `setConstraints` with something that is not callable changes nothing, for no population. -/
theorem C124_refused (w : World) (m : ℕ) (args : List Obj) (h : Obj.other ∈ args) : step w (.set m args) = w := by
  have : setConstraints args = .error "ValueError" := by
    unfold setConstraints
    rw [if_neg]
    intro hall
    have := List.all_eq_true.1 hall _ h
    cases this
  unfold step
  simp only [this]

/-- What is appended to a list by an event, other than through the attribute of a population. -/
def appendedTo (k : ℕ) : Event → List (Dict → Bool)
  | .listAppend k' f => if k' = k then [f] else []
  | _ => []

/-- Nothing is appended through the attribute `constraints` of a population. -/
def NoAttr : Event → Prop
  | .attrAppend _ _ => False
  | _ => True

theorem run_lists (w : World) (evs : List Event) (k : ℕ) (h : ∀ e ∈ evs, NoAttr e) :
    (run w evs).lists k = w.lists k ++ evs.flatMap (appendedTo k) := by
  induction evs generalizing w with
  | nil => simp [run]
  | cons e evs ih =>
    have h1 := ih (step w e) fun e' he' => h e' (List.mem_cons_of_mem _ he')
    refine h1.trans ?_
    rw [List.flatMap_cons, ← List.append_assoc]
    congr 1
    have he := h e List.mem_cons_self
    cases e with
    | construct m g => simp [step, appendedTo]
    | set m args =>
      unfold step
      simp only [appendedTo, List.append_nil]
      cases setConstraints args <;> rfl
    | listAppend k' f =>
      unfold step appendedTo
      by_cases hk : k' = k
      · subst hk; simp [put]
      · simp [put, hk, Ne.symm hk]
    | contAppend k' f => simp [step, appendedTo]
    | attrAppend m f => exact absurd he (by simp [NoAttr])
    | check m params =>
      unfold step
      simp only [appendedTo, List.append_nil]
      cases w.pops m <;> rfl

/-- C124, negation: a list given to the constructor is not copied (one given to `setConstraints` is): what the caller appends
to it later is enforced as well. -/
theorem C124_list (pow10 : ℚ → ℚ) (w : World) (m k : ℕ) (evs : List Event) (hev : ∀ e ∈ evs, ¬ Gives m e)
    (hna : ∀ e ∈ evs, NoAttr e) (params : Dict) :
    verdict pow10 (run (step w (.construct m (.list k))) evs) m params = true ↔
      (∀ f ∈ w.lists k, f params = true) ∧ ∀ f, Event.listAppend k f ∈ evs → f params = true := by
  unfold verdict
  rw [run_pops _ evs m hev, show (step w (.construct m (.list k))).pops m = .list k from put_self _ _ _]
  simp only
  rw [ifEmpty_iff, run_lists _ evs k hna]
  constructor
  · intro h
    refine ⟨fun f hf => h f (List.mem_append_left _ hf), fun f hf => h f (List.mem_append_right _ ?_)⟩
    exact List.mem_flatMap.2 ⟨_, hf, by simp [appendedTo]⟩
  · rintro ⟨h1, h2⟩ f hf
    rcases List.mem_append.1 hf with hf | hf
    · exact h1 f hf
    · obtain ⟨e, he, hfe⟩ := List.mem_flatMap.1 hf
      cases e with
      | listAppend k' g =>
        simp only [appendedTo] at hfe
        by_cases hk : k' = k
        · subst hk
          rw [if_pos rfl] at hfe
          rw [List.mem_singleton.1 hfe]
          exact h2 g he
        · rw [if_neg hk] at hfe; simp at hfe
      | construct m g => simp [appendedTo] at hfe
      | set m args => simp [appendedTo] at hfe
      | contAppend k' g => simp [appendedTo] at hfe
      | attrAppend m g => simp [appendedTo] at hfe
      | check m params => simp [appendedTo] at hfe

/-- C124: without constraints everything passes, as long as nothing is appended to the attribute of some population. -/
theorem C124_none (pow10 : ℚ → ℚ) (w : World) (m : ℕ) (evs : List Event) (hev : ∀ e ∈ evs, ¬ Gives m e)
    (hna : ∀ e ∈ evs, NoAttr e) (h0 : w.lists 0 = []) (hl : ∀ f, Event.listAppend 0 f ∉ evs) (params : Dict) :
    verdict pow10 (run (step w (.construct m .nothing)) evs) m params = true := by
  have := (C124_list pow10 w m 0 evs hev hna params).2
    ⟨fun f hf => by rw [h0] at hf; simp at hf, fun f hf => absurd hf (hl f)⟩
  exact this

/-- C124, negation: the default list is shared: a function appended to the constraints of one population made without any is
enforced for every other population made without any, before or after. -/
theorem C124_shared_default (pow10 : ℚ → ℚ) (w : World) (m m' : ℕ) (h0 : w.lists 0 = []) (f : Dict → Bool) (params : Dict) :
    verdict pow10 (run w [.construct m .nothing, .construct m' .nothing, .attrAppend m f]) m' params = f params ∧
      verdict pow10 (run w [.construct m .nothing, .attrAppend m f, .construct m' .nothing]) m' params = f params := by
  have e1 : (run w [.construct m .nothing, .construct m' .nothing, .attrAppend m f]).pops m' = .list 0 ∧
      (run w [.construct m .nothing, .construct m' .nothing, .attrAppend m f]).lists 0 = [f] := by
    simp only [run, List.foldl_cons, List.foldl_nil, step, sourceOf]
    by_cases h : m = m' <;> simp [put, h, h0]
  have e2 : (run w [.construct m .nothing, .attrAppend m f, .construct m' .nothing]).pops m' = .list 0 ∧
      (run w [.construct m .nothing, .attrAppend m f, .construct m' .nothing]).lists 0 = [f] := by
    simp only [run, List.foldl_cons, List.foldl_nil, step, sourceOf]
    simp [put, h0]
  unfold verdict
  rw [e1.1, e2.1]
  simp only [e1.2, e2.2, List.isEmpty_cons, Bool.false_eq_true, if_false, passesList]
  cases f params <;> simp

theorem run_conts (w : World) (evs : List Event) (k : ℕ) (h : ∀ e ∈ evs, NoAttr e) :
    ((run w evs).conts k).cList = (w.conts k).cList ∧
      ∀ f, f ∈ ((run w evs).conts k).fList ↔ f ∈ (w.conts k).fList ∨ Event.contAppend k f ∈ evs := by
  induction evs generalizing w with
  | nil => simp [run]
  | cons e evs ih =>
    have h1 := ih (step w e) fun e' he' => h e' (List.mem_cons_of_mem _ he')
    have he := h e List.mem_cons_self
    have same : (step w e).conts k = w.conts k → (∀ f, e ≠ .contAppend k f) →
        ((run w (e :: evs)).conts k).cList = (w.conts k).cList ∧
          ∀ f, f ∈ ((run w (e :: evs)).conts k).fList ↔ f ∈ (w.conts k).fList ∨ Event.contAppend k f ∈ e :: evs := by
      intro hs hn
      rw [hs] at h1
      refine ⟨h1.1, fun f => (h1.2 f).trans ?_⟩
      rw [List.mem_cons]
      constructor
      · rintro (h | h)
        exacts [.inl h, .inr (.inr h)]
      · rintro (h | h | h)
        exacts [.inl h, absurd h.symm (hn f), .inr h]
    cases e with
    | construct m g => exact same rfl (by simp)
    | set m args =>
      refine same ?_ (by simp)
      unfold step
      simp only
      cases setConstraints args <;> rfl
    | listAppend k' f => exact same rfl (by simp)
    | contAppend k' g =>
      by_cases hk : k' = k
      · subst hk
        have hs : (step w (.contAppend k' g)).conts k' = (w.conts k').append g := put_self _ _ _
        rw [hs] at h1
        refine ⟨h1.1, fun f => (h1.2 f).trans ?_⟩
        simp only [Cont.append, List.mem_append, List.mem_cons, List.not_mem_nil, or_false, Event.contAppend.injEq, true_and]
        tauto
      · exact same (put_ne _ _ _ _ (Ne.symm hk)) (by intro f e; injection e with e; exact hk e)
    | attrAppend m f => exact absurd he (by simp [NoAttr])
    | check m params =>
      refine same ?_ (by simp)
      unfold step
      simp only
      cases w.pops m <;> rfl

/-- C124: a container given to the constructor is enforced as a whole: the registered methods (under the conditions of C09) and
the functions appended to it, before or after. -/
theorem C124_container (pow10 : ℚ → ℚ) (w : World) (m k : ℕ) (evs : List Event) (hev : ∀ e ∈ evs, ¬ Gives m e)
    (hna : ∀ e ∈ evs, NoAttr e) (params : Dict) (hc : NoClash (w.conts k).cList) (hown : ∀ r ∈ (w.conts k).cList, ReadsOwn r) :
    verdict pow10 (run (step w (.construct m (.cont k))) evs) m params = true ↔
      (∀ r ∈ (w.conts k).cList, Accepts pow10 r params) ∧ (∀ f ∈ (w.conts k).fList, f params = true) ∧
        ∀ f, Event.contAppend k f ∈ evs → f params = true := by
  unfold verdict
  rw [run_pops _ evs m hev, show (step w (.construct m (.cont k))).pops m = .cont k from put_self _ _ _]
  simp only
  obtain ⟨e1, e2⟩ := run_conts (step w (.construct m (.cont k))) evs k hna
  have e0 : (step w (.construct m (.cont k))).conts k = w.conts k := rfl
  rw [e0] at e1 e2
  generalize (run (step w (.construct m (.cont k))) evs).conts k = c at e1 e2
  have key : (if c.bool = true then passesLazy pow10 params c.cList c.fList Dict.empty else true) = true ↔
      (∀ r ∈ c.cList, Accepts pow10 r params) ∧ ∀ f ∈ c.fList, f params = true := by
    have h := C09_lazy_partial pow10 params c.cList c.fList (e1 ▸ hc) (e1 ▸ hown)
    unfold C09Holds at h
    by_cases hb : c.bool = true
    · rw [if_pos hb]; exact h
    · rw [if_neg hb]
      unfold Cont.bool at hb
      simp at hb
      simp [hb.1, hb.2]
  rw [key, e1]
  constructor
  · rintro ⟨h1, h2⟩
    exact ⟨h1, fun f hf => h2 f ((e2 f).2 (.inl hf)), fun f hf => h2 f ((e2 f).2 (.inr hf))⟩
  · rintro ⟨h1, h2, h3⟩
    exact ⟨h1, fun f hf => ((e2 f).1 hf).elim (h2 f) (h3 f)⟩

theorem consume_true (params : Dict) (fs : List (Dict → Bool)) (h : (consume params fs).1 = true) :
    (consume params fs).2 = [] := by
  induction fs with
  | nil => rfl
  | cons f fs ih =>
    unfold consume at h ⊢
    by_cases hf : f params = true
    · rw [if_pos hf] at h ⊢; exact ih h
    · rw [if_neg hf] at h; cases h

theorem run_gens (w : World) (evs : List Event) (k : ℕ) (h : w.gens k = []) : (run w evs).gens k = [] := by
  induction evs generalizing w with
  | nil => exact h
  | cons e evs ih =>
    refine ih (step w e) ?_
    cases e with
    | construct m g => exact h
    | set m args =>
      unfold step
      simp only
      cases setConstraints args <;> exact h
    | listAppend k' f => exact h
    | contAppend k' f => exact h
    | attrAppend m f =>
      unfold step
      simp only
      cases w.pops m <;> exact h
    | check m params =>
      unfold step
      simp only
      cases w.pops m with
      | gen k' =>
        by_cases hk : k = k'
        · subst hk; simp [put, h, consume]
        · exact (put_ne _ _ _ _ hk).trans h
      | own _ => exact h
      | list _ => exact h
      | cont _ => exact h

/-- C124, negation: a generator of constraints given to the constructor is used up by the first combination that passes: from
then on everything passes. -/
theorem C124_generator (pow10 : ℚ → ℚ) (w : World) (m k : ℕ) (h : w.pops m = .gen k) (first : Dict)
    (hp : verdict pow10 w m first = true) (evs : List Event) (hev : ∀ e ∈ evs, ¬ Gives m e) (params : Dict) :
    verdict pow10 (run (step w (.check m first)) evs) m params = true := by
  have h1 : (step w (.check m first)).gens k = [] := by
    unfold step
    simp only [h]
    rw [put_self]
    unfold verdict at hp
    rw [h] at hp
    exact consume_true first _ hp
  have h2 : (step w (.check m first)).pops m = .gen k := by rw [step_pops w _ m (by simp [Gives]), h]
  unfold verdict
  rw [run_pops _ evs m hev, h2]
  simp only
  rw [run_gens _ evs k h1]
  rfl

/-- C124: what is done with one population has no effect on another one, unless both were given the same generator or functions
are appended through the attribute of one. -/
theorem C124_isolated (pow10 : ℚ → ℚ) (w : World) (m m' : ℕ) (hne : m' ≠ m) (e : Event)
    (he : (∃ g, e = .construct m' g) ∨ (∃ args, e = .set m' args) ∨
      (∃ params, e = .check m' params) ∧ ∀ k, w.pops m' = .gen k → w.pops m ≠ .gen k) (params : Dict) :
    verdict pow10 (step w e) m params = verdict pow10 w m params := by
  have hp : (step w e).pops m = w.pops m := by
    refine step_pops w e m ?_
    rcases he with ⟨g, rfl⟩ | ⟨a, rfl⟩ | ⟨⟨p, rfl⟩, _⟩ <;> simp [Gives, hne]
  have hl : (step w e).lists = w.lists ∧ (step w e).conts = w.conts := by
    rcases he with ⟨g, rfl⟩ | ⟨a, rfl⟩ | ⟨⟨p, rfl⟩, _⟩
    · exact ⟨rfl, rfl⟩
    · unfold step
      simp only
      cases setConstraints a <;> exact ⟨rfl, rfl⟩
    · unfold step
      simp only
      cases w.pops m' <;> exact ⟨rfl, rfl⟩
  have hg : ∀ k, w.pops m = .gen k → (step w e).gens k = w.gens k := by
    intro k hk
    rcases he with ⟨g, rfl⟩ | ⟨a, rfl⟩ | ⟨⟨p, rfl⟩, hd⟩
    · rfl
    · unfold step
      simp only
      cases setConstraints a <;> rfl
    · unfold step
      simp only
      cases hm : w.pops m' with
      | gen k' => exact put_ne _ _ _ _ (fun e => hd k' hm (e ▸ hk))
      | own _ => rfl
      | list _ => rfl
      | cont _ => rfl
  unfold verdict
  rw [hp, hl.1, hl.2]
  cases hm : w.pops m with
  | gen k => simp only [hg k hm]
  | own _ => rfl
  | list _ => rfl
  | cont _ => rfl

/-- C124: the length of a container is the number of registered methods and appended functions; it is true exactly if that is
not zero; a new one has the registered methods. -/
theorem C124_length (registry : List Registered) (fs : List (Dict → Bool)) (c : Cont) (h : Cont.init [] (some registry) = some c) :
    (fs.foldl Cont.append c).len = registry.length + fs.length ∧
      ((fs.foldl Cont.append c).bool = true ↔ registry.length + fs.length ≠ 0) := by
  have key : ∀ (fs : List (Dict → Bool)) (c : Cont), (fs.foldl Cont.append c) = ⟨c.cList, c.fList ++ fs⟩ := by
    intro fs
    induction fs with
    | nil => intro c; simp
    | cons f fs ih => intro c; rw [List.foldl_cons, ih]; simp [Cont.append]
  unfold Cont.init at h
  simp only [Option.map_some, Option.some.injEq] at h
  subst h
  rw [key]
  refine ⟨by simp [Cont.len], ?_⟩
  unfold Cont.bool
  cases registry <;> cases fs <;> simp

/-- C124, negation: a container cannot be made if its `setup` appends a function, nor without a registry. -/
theorem C124_no_container (inSetup : List (Dict → Bool)) (registry : Option (List Registered)) :
    Cont.init inSetup registry = none ↔ inSetup ≠ [] ∨ registry = none := by
  cases inSetup <;> simp [Cont.init]

/-- C124: with sets of names, a registered method is called as C09 says. -/
theorem C124_names (pow10 : ℚ → ℚ) (r : Registered) (params : Dict) :
    firstWrapper pow10 r.func (.set r.linear) (.set r.log) params = some (Constraints.wrapper pow10 r params Dict.empty).1 := by
  unfold firstWrapper Constraints.wrapper
  simp only [Names.present, Names.toList, Option.bind_some, Option.map_some]
  cases Constraints.subset r.linear params <;> cases Constraints.subset r.log params <;> simp

/-- C124: leaving out the names, linear or logarithmic or both, is the same as giving an empty set of them. -/
theorem C124_names_left_out (pow10 : ℚ → ℚ) (func : Dict → Bool) (names : Names) (params : Dict) :
    firstWrapper pow10 func .none names params = firstWrapper pow10 func (.set []) names params ∧
      firstWrapper pow10 func names .none params = firstWrapper pow10 func names (.set []) params := by
  have h : (Names.set []).present params = Names.none.present params := rfl
  unfold firstWrapper
  rw [h]
  exact ⟨rfl, rfl⟩

/-- C124, negation: with a list or tuple of names the check is an error, for all parameters: it is not a set. -/
theorem C124_names_list (pow10 : ℚ → ℚ) (func : Dict → Bool) (n : String) (ns : List String) (log : Names) (params : Dict) :
    firstWrapper pow10 func (.other (n :: ns)) log params = none := rfl

namespace Demo

/-- Two constraints, and a world with a list, a container and a generator of them. -/
def small : Dict → Bool := fun d => decide (d "a" = some 1)
def never : Dict → Bool := fun _ => false
def w0 : World := ⟨fun k => if k = 1 then [small] else [], fun _ => ⟨[⟨small, ["a"], []⟩], []⟩, fun _ => [small], fun _ => .list 0⟩
def one : Dict := fun n => if n = "a" then some 1 else none
def two : Dict := fun n => if n = "a" then some 2 else none

example : verdict id (run w0 [.set 3 [.callable small]]) 3 one = true ∧ verdict id (run w0 [.set 3 [.callable small]]) 3 two = false ∧
    verdict id (run w0 [.construct 3 (.list 1), .listAppend 1 never]) 3 one = false ∧
    verdict id (run w0 [.construct 3 (.gen 1), .check 3 one]) 3 two = true ∧
    verdict id (run w0 [.construct 3 (.gen 1)]) 3 two = false := by decide +kernel

example := C124_installed id w0 3 [small] [.construct 4 (.list 1), .check 3 two, .listAppend 1 never] (by simp [Gives]) one
example := C124_single id w0 3 small [.construct 4 (.list 1), .check 3 two, .listAppend 1 never] (by simp [Gives]) one
example := C124_refused w0 3 [.callable small, .other] (by simp)
example := C124_list id w0 3 1 [.check 3 one, .listAppend 1 never] (by simp [Gives]) (by simp [NoAttr]) one
example := C124_none id w0 3 [.check 3 one, .listAppend 1 never] (by simp [Gives]) (by simp [NoAttr]) rfl (by simp) two
example := C124_shared_default id w0 3 4 rfl never one
example := C124_container id w0 3 1 [.check 3 one, .contAppend 1 never] (by simp [Gives]) (by simp [NoAttr]) two
  (by intro a _ b hb n _; simp [w0] at hb; subst hb; simp)
  (by intro r hr d d' h; simp [w0] at hr; subst hr; simp only [small, h "a" (by simp)])
example := C124_generator id (step w0 (.construct 3 (.gen 1))) 3 1 rfl one (by decide +kernel) [.check 3 two] (by simp [Gives]) two
example := C124_isolated id (run w0 [.construct 3 (.gen 1), .construct 4 (.gen 2)]) 3 4 (by decide) (.check 4 one)
  (.inr (.inr ⟨⟨one, rfl⟩, fun k hk hk' => by
    have h1 : (Source.gen 2) = .gen k := hk
    have h2 : (Source.gen 1) = .gen k := hk'
    cases h1; cases h2⟩)) two
example := C124_length [⟨small, ["a"], []⟩] [never, small] ⟨[⟨small, ["a"], []⟩], []⟩ rfl
example := C124_no_container [never] (some [])
example := C124_names id ⟨small, ["a"], []⟩ one
example := C124_names_left_out id small (.set ["a"]) one
example := C124_names_list id small "a" [] .none one

end Demo

end ConstraintSets
end Ade
