import Verif.Model.Constraints
import Mathlib.Tactic.Linarith
import Mathlib.Data.List.Basic
import Mathlib.Algebra.Order.Ring.Abs

/-!
# Properties C08, C09: relation checking and the constraints container
-/

set_option autoImplicit false

namespace Ade
open ParamManager (Dict)
open Constraints

/-! ## C08 -/

/-- Specification: the parameters satisfy a relation within its tolerance. -/
def Satisfies (params : Dict) (r : Relation) : Prop :=
  ∃ x y, params r.x = some x ∧ params r.y = some y ∧
    y - r.yMaxErr ≤ r.m * x + r.b ∧ r.m * x + r.b ≤ y + r.yMaxErr

/-- C08: accepted exactly when all relations are satisfied. -/
theorem C08_accepts_iff (params : Dict) (rs : List Relation) :
    checkRelations params rs = some true ↔ ∀ r ∈ rs, Satisfies params r := by
  induction rs with
  | nil => simp [checkRelations]
  | cons r rs ih =>
    unfold checkRelations
    cases hx : params r.x with
    | none =>
      simp only [reduceCtorEq, List.mem_cons, forall_eq_or_imp, false_iff, not_and]
      rintro ⟨x, y, h, _⟩; simp [hx] at h
    | some x =>
      cases hy : params r.y with
      | none =>
        simp only [reduceCtorEq, List.mem_cons, forall_eq_or_imp, false_iff, not_and]
        rintro ⟨x, y, _, h, _⟩; simp [hy] at h
      | some y =>
        have hsat : Satisfies params r ↔ ¬ |r.m * x + r.b - y| > r.yMaxErr := by
          unfold Satisfies
          simp only [hx, hy, Option.some.injEq, gt_iff_lt, not_lt, abs_le]
          constructor
          · rintro ⟨_, _, rfl, rfl, h1, h2⟩; constructor <;> linarith
          · rintro ⟨h1, h2⟩; exact ⟨x, y, rfl, rfl, by linarith, by linarith⟩
        simp only [List.mem_cons, forall_eq_or_imp, hsat]
        by_cases h : |r.m * x + r.b - y| > r.yMaxErr
        · simp [h]
        · simp only [h, if_false, not_false_eq_true, true_and]; exact ih

/-- C08: rejected exactly when some relation is violated, provided all parameters are defined (then
there is never a lookup error). -/
theorem C08_rejects_iff (params : Dict) (rs : List Relation)
    (hdef : ∀ r ∈ rs, (params r.x).isSome ∧ (params r.y).isSome) :
    checkRelations params rs = some false ↔ ∃ r ∈ rs, ¬ Satisfies params r := by
  have hsome : ∃ b, checkRelations params rs = some b := by
    induction rs with
    | nil => exact ⟨_, rfl⟩
    | cons r rs ih =>
      obtain ⟨h1, h2⟩ := hdef r (by simp)
      obtain ⟨x, hx⟩ := Option.isSome_iff_exists.1 h1
      obtain ⟨y, hy⟩ := Option.isSome_iff_exists.1 h2
      unfold checkRelations
      simp only [hx, hy]
      split
      · exact ⟨_, rfl⟩
      · exact ih (fun r' h => hdef r' (List.mem_cons_of_mem _ h))
  obtain ⟨b, hb⟩ := hsome
  have := C08_accepts_iff params rs
  rw [hb] at this ⊢
  cases b with
  | true => simp only [Option.some.injEq, Bool.true_eq_false, false_iff, not_exists, not_and, not_not]
            exact this.1 rfl
  | false =>
    simp only [Option.some.injEq, Bool.false_eq_true, false_iff, not_forall] at this
    simpa using this

/-- C08: the order of the relations does not matter for acceptance. -/
theorem C08_order_irrelevant (params : Dict) (rs rs' : List Relation) (h : ∀ r, r ∈ rs ↔ r ∈ rs') :
    checkRelations params rs = some true ↔ checkRelations params rs' = some true := by
  simp only [C08_accepts_iff, h]

/-- A params dict for examples. -/
def exParams : Dict := fun n => if n = "a" then some 2 else if n = "b" then some 7 else none

example : checkRelations exParams [⟨"a", "b", 3, 0, 1⟩] = some true ∧
    checkRelations exParams [⟨"a", "b", 3, 0, 1/2⟩] = some false ∧
    checkRelations exParams [⟨"a", "c", 3, 0, 1/2⟩] = none := by
  decide +kernel

/-! ## C09 -/

/-- Specification: the dict a registered method should be given: its own linear names with their
values, its own log names with ten to the power of their values, nothing else. -/
def ownDict (pow10 : ℚ → ℚ) (r : Registered) (params : Dict) : Dict := fun n =>
  if n ∈ r.linear then params n else if n ∈ r.log then (params n).map pow10 else none

/-- Specification: a registered method accepts parameters if one of its parameters is missing or it
returns true on its own dict. -/
def Accepts (pow10 : ℚ → ℚ) (r : Registered) (params : Dict) : Prop :=
  (∃ n, (n ∈ r.linear ∨ n ∈ r.log) ∧ params n = none) ∨ r.func (ownDict pow10 r params) = true

/-- The method looks at no other names than those it is registered with. -/
def ReadsOwn (r : Registered) : Prop :=
  ∀ d d' : Dict, (∀ n, n ∈ r.linear ∨ n ∈ r.log → d n = d' n) → r.func d = r.func d'

/-- No name is linear for one method and log for another (or the same) one. -/
def NoClash (rs : List Registered) : Prop :=
  ∀ r ∈ rs, ∀ r' ∈ rs, ∀ n, n ∈ r.linear → n ∉ r'.log

theorem fill_lookup (params : Dict) (f : ℚ → ℚ) (names : List String) (new : Dict) (n : String) :
    fill params f names new n =
      match new n with
      | some v => some v
      | none => if n ∈ names then (params n).map f else none := by
  induction names generalizing new with
  | nil => simp only [fill, List.foldl_nil, List.not_mem_nil, if_false]; cases new n <;> rfl
  | cons m ms ih =>
    have step : fill params f (m :: ms) new = fill params f ms
        (match new m, params m with
          | none, some v => Dict.set new m (f v)
          | _, _ => new) := rfl
    rw [step, ih]
    cases hm : new m with
    | some w =>
      simp only
      cases hn : new n with
      | some v => rfl
      | none =>
        have : n ≠ m := fun h => by rw [h, hm] at hn; cases hn
        simp [this]
    | none =>
      cases hp : params m with
      | none =>
        simp only
        cases hn : new n with
        | some v => rfl
        | none =>
          by_cases h : n = m
          · subst h; simp [hp]
          · simp [h]
      | some v =>
        simp only [Dict.set]
        by_cases h : n = m
        · subst h; simp [hm, hp]
        · simp [h]

/-- The shared dict so far agrees with what each method expects. -/
def SharedOK (pow10 : ℚ → ℚ) (rs : List Registered) (params new : Dict) : Prop :=
  ∀ n v, new n = some v →
    (∃ r ∈ rs, n ∈ r.linear) ∧ params n = some v ∨
    (∃ r ∈ rs, n ∈ r.log) ∧ (params n).map pow10 = some v

theorem subset_iff (names : List String) (params : Dict) :
    Constraints.subset names params = true ↔ ∀ n ∈ names, (params n).isSome := by
  simp [Constraints.subset]

theorem wrapper_ok (pow10 : ℚ → ℚ) (all : List Registered) (hc : NoClash all) (r : Registered)
    (hr : r ∈ all) (hown : ReadsOwn r) (params new : Dict) (hs : SharedOK pow10 all params new) :
    ((wrapper pow10 r params new).1 = true ↔ Accepts pow10 r params) ∧
    SharedOK pow10 all params (wrapper pow10 r params new).2 := by
  have hfill1 : SharedOK pow10 all params (fill params id r.linear new) := by
    intro n v h
    rw [fill_lookup] at h
    cases hn : new n with
    | some w => rw [hn] at h; simp only [Option.some.injEq] at h; subst h; exact hs n w hn
    | none =>
      rw [hn] at h
      by_cases hm : n ∈ r.linear
      · left; simp [hm] at h; exact ⟨⟨r, hr, hm⟩, h⟩
      · simp [hm] at h
  have hfill2 : SharedOK pow10 all params (fill params pow10 r.log (fill params id r.linear new)) := by
    intro n v h
    rw [fill_lookup] at h
    cases hn : fill params id r.linear new n with
    | some w => rw [hn] at h; simp only [Option.some.injEq] at h; subst h; exact hfill1 n w hn
    | none =>
      rw [hn] at h
      by_cases hm : n ∈ r.log
      · right; simp only [hm, if_true] at h; exact ⟨⟨r, hr, hm⟩, h⟩
      · simp [hm] at h
  unfold wrapper
  cases h1 : Constraints.subset r.linear params with
  | false =>
    simp only [Bool.not_false, if_true, true_iff]
    refine ⟨.inl ?_, hs⟩
    have h1' : ¬ ∀ n ∈ r.linear, (params n).isSome := by rw [← subset_iff, h1]; simp
    simp only [not_forall] at h1'
    obtain ⟨n, hn, h⟩ := h1'
    exact ⟨n, .inl hn, by simpa using h⟩
  | true =>
    simp only [Bool.not_true, Bool.false_eq_true, if_false]
    cases h2 : Constraints.subset r.log params with
    | false =>
      simp only [Bool.not_false, if_true, true_iff]
      refine ⟨.inl ?_, hfill1⟩
      have h1' : ¬ ∀ n ∈ r.log, (params n).isSome := by rw [← subset_iff, h2]; simp
      simp only [not_forall] at h1'
      obtain ⟨n, hn, h⟩ := h1'
      exact ⟨n, .inr hn, by simpa using h⟩
    | true =>
      simp only [Bool.not_true, Bool.false_eq_true, if_false]
      refine ⟨?_, hfill2⟩
      rw [subset_iff] at h1 h2
      have hfun : r.func (fill params pow10 r.log (fill params id r.linear new)) =
          r.func (ownDict pow10 r params) := by
        apply hown
        intro n hn
        -- the value found in the shared dict is the method's own
        have hval : ∃ v, fill params pow10 r.log (fill params id r.linear new) n = some v := by
          rw [fill_lookup]
          cases hf : fill params id r.linear new n with
          | some v => exact ⟨v, rfl⟩
          | none =>
            rcases hn with hn | hn
            · rw [fill_lookup] at hf
              cases hnn : new n with
              | some w => simp [hnn] at hf
              | none =>
                have := h1 n hn
                simp only [hnn, hn, if_true, Option.map_id, id] at hf
                simp [hf] at this
            · obtain ⟨w, hw⟩ := Option.isSome_iff_exists.1 (h2 n hn)
              exact ⟨pow10 w, by simp [hn, hw]⟩
        obtain ⟨v, hv⟩ := hval
        rw [hv]
        unfold ownDict
        rcases hfill2 n v hv with ⟨⟨r', hr', hlin⟩, hp⟩ | ⟨⟨r', hr', hlog⟩, hp⟩
        · rcases hn with hn | hn
          · simp [hn, hp]
          · exact absurd hn (hc r' hr' r hr n hlin)
        · have hnl : n ∉ r.linear := fun h => hc r hr r' hr' n h hlog
          rcases hn with hn | hn
          · exact absurd hn hnl
          · simp [hnl, hn, hp]
      rw [hfun]
      constructor
      · exact .inr
      · rintro (⟨n, hn, hnone⟩ | h)
        · rcases hn with hn | hn
          · have := h1 n hn; simp [hnone] at this
          · have := h2 n hn; simp [hnone] at this
        · exact h

/-- The full property C09 for one way of consuming the container: the conjunction of the yielded checks
is the conjunction of the registered methods on their own dicts and of the appended functions. -/
def C09Holds (passes : List Registered → List (Dict → Bool) → Bool) (pow10 : ℚ → ℚ) (params : Dict)
    (rs : List Registered) (fs : List (Dict → Bool)) : Prop :=
  passes rs fs = true ↔ (∀ r ∈ rs, Accepts pow10 r params) ∧ ∀ f ∈ fs, f params = true

/-- C09, partial: holds when the container is consumed lazily (as the population does), no name is
linear in one method and log in another, and methods read only their registered names.
Missing from the full property: other ways of consumption and clashing names, where it is false
(`C09_clash_breaks`, `C09_collected_breaks`). -/
theorem C09_lazy_partial (pow10 : ℚ → ℚ) (params : Dict) (rs : List Registered)
    (fs : List (Dict → Bool)) (hc : NoClash rs) (hown : ∀ r ∈ rs, ReadsOwn r) :
    C09Holds (fun rs fs => passesLazy pow10 params rs fs Dict.empty) pow10 params rs fs := by
  have key : ∀ (l : List Registered) (new : Dict), (∀ r ∈ l, r ∈ rs) →
      SharedOK pow10 rs params new →
      (passesLazy pow10 params l fs new = true ↔
        (∀ r ∈ l, Accepts pow10 r params) ∧ ∀ f ∈ fs, f params = true) := by
    intro l
    induction l with
    | nil => intro new _ _; simp [passesLazy]
    | cons r l ih =>
      intro new hsub hs
      obtain ⟨h1, h2⟩ := wrapper_ok pow10 rs hc r (hsub r (by simp)) (hown r (hsub r (by simp)))
        params new hs
      unfold passesLazy
      simp only [List.mem_cons, forall_eq_or_imp]
      cases hw : (wrapper pow10 r params new).1 with
      | false =>
        simp only [Bool.not_false, if_true, Bool.false_eq_true, false_iff]
        rintro ⟨⟨h, _⟩, _⟩
        rw [← h1, hw] at h; cases h
      | true =>
        simp only [Bool.not_true, Bool.false_eq_true, if_false]
        rw [ih _ (fun r' h => hsub r' (List.mem_cons_of_mem _ h)) h2]
        have := h1.1 hw
        simp [this]
  exact key rs Dict.empty (fun _ h => h) (by intro n v h; simp [Dict.empty] at h)

/-- A method for the examples: checks that parameter `n` is below a limit. -/
def below (n : String) (lim : ℚ) : Dict → Bool := fun d =>
  match d n with
  | some v => decide (v < lim)
  | none => false

/-- C09 fails when a name is linear in one method and log in another: the first one's scaling is used
for both. -/
theorem C09_clash_breaks : ∃ (pow10 : ℚ → ℚ) (params : Dict) (rs : List Registered),
    (∀ r ∈ rs, ReadsOwn r) ∧
    ¬ C09Holds (fun rs fs => passesLazy pow10 params rs fs Dict.empty) pow10 params rs [] := by
  refine ⟨fun x => 10 * x, fun n => if n = "a" then some 2 else none,
    [⟨below "a" 5, ["a"], []⟩, ⟨below "a" 5, [], ["a"]⟩], ?_, ?_⟩
  · intro r hr d d' h
    simp only [List.mem_cons, List.not_mem_nil, or_false] at hr
    rcases hr with rfl | rfl <;> simp only [below, h "a" (by simp)]
  · intro h
    have h1 := h.1 (by decide)
    have h2 := h1.1 ⟨below "a" 5, [], ["a"]⟩ (by simp)
    rcases h2 with ⟨n, hn, h3⟩ | h3
    · simp only [List.not_mem_nil, List.mem_cons, or_false, false_or] at hn
      subst hn; simp at h3
    · revert h3
      decide +kernel

/-- C09 fails when the checks are collected first: then only the last registered method is called. -/
theorem C09_collected_breaks : ∃ (pow10 : ℚ → ℚ) (params : Dict) (rs : List Registered),
    NoClash rs ∧ (∀ r ∈ rs, ReadsOwn r) ∧
    ¬ C09Holds (fun rs fs => passesCollected pow10 params rs fs) pow10 params rs [] := by
  refine ⟨id, fun n => if n = "a" then some 2 else if n = "b" then some 9 else none,
    [⟨below "b" 5, ["b"], []⟩, ⟨below "a" 5, ["a"], []⟩], ?_, ?_, ?_⟩
  · intro r hr r' hr' n _
    simp only [List.mem_cons, List.not_mem_nil, or_false] at hr'
    rcases hr' with rfl | rfl <;> simp
  · intro r hr d d' h
    simp only [List.mem_cons, List.not_mem_nil, or_false] at hr
    rcases hr with rfl | rfl
    · simp only [below, h "b" (by simp)]
    · simp only [below, h "a" (by simp)]
  · intro h
    have h1 := h.1 (by decide)
    have h2 := h1.1 ⟨below "b" 5, ["b"], []⟩ (by simp)
    rcases h2 with ⟨n, hn, h3⟩ | h3
    · simp only [List.not_mem_nil, List.mem_cons, or_false] at hn
      subst hn; simp at h3
    · revert h3
      decide +kernel

theorem fill_again (params : Dict) (f g : ℚ → ℚ) (ns ms : List String) (new : Dict) :
    fill params f ns (fill params g ms (fill params f ns new)) = fill params g ms (fill params f ns new) := by
  funext n
  rw [fill_lookup]
  cases h : fill params g ms (fill params f ns new) n with
  | some v => rfl
  | none =>
    rw [fill_lookup] at h
    cases h' : fill params f ns new n with
    | some v => rw [h'] at h; cases h
    | none =>
      rw [fill_lookup] at h'
      cases h'' : new n with
      | some v => rw [h''] at h'; cases h'
      | none => rw [h''] at h'; exact h'

theorem fill_twice (params : Dict) (f : ℚ → ℚ) (ns : List String) (new : Dict) :
    fill params f ns (fill params f ns new) = fill params f ns new := by
  funext n
  rw [fill_lookup]
  cases h : fill params f ns new n with
  | some v => rfl
  | none =>
    rw [fill_lookup] at h
    cases h' : new n with
    | some v => rw [h'] at h; cases h
    | none => rw [h'] at h; exact h

/-- Calling the same wrapper again gives the same verdict and changes nothing. -/
theorem wrapper_again (pow10 : ℚ → ℚ) (r : Registered) (params new : Dict) :
    wrapper pow10 r params (wrapper pow10 r params new).2 = wrapper pow10 r params new := by
  unfold wrapper
  cases h1 : Constraints.subset r.linear params with
  | false => simp
  | true =>
    cases h2 : Constraints.subset r.log params with
    | false => simp [fill_twice]
    | true => simp [fill_again, fill_twice]

theorem callAgain_eq (pow10 : ℚ → ℚ) (r : Registered) (params : Dict) (n : ℕ) (new : Dict) :
    callAgain pow10 params r (n + 1) new = wrapper pow10 r params new := by
  induction n generalizing new with
  | zero =>
    unfold callAgain
    cases h : wrapper pow10 r params new with
    | mk b d => cases b <;> simp [callAgain]
  | succ n ih =>
    unfold callAgain
    cases h : wrapper pow10 r params new with
    | mk b d =>
      have := wrapper_again pow10 r params new
      rw [h] at this
      cases b with
      | false => simp
      | true => simp [ih, this]

/-- C09: what is checked when the checks are collected first: the last function of all, with the names of the last registered
method (as many times as there are registered methods), and the appended functions. -/
theorem C09_collected_iff (pow10 : ℚ → ℚ) (params : Dict) (rs : List Registered) (r : Registered)
    (fs : List (Dict → Bool)) (last : Dict → Bool)
    (hlast : (fs = [] ∧ last = r.func) ∨ ∃ fs', fs = fs' ++ [last])
    (hc : NoClash [r]) (hown : ReadsOwn ⟨last, r.linear, r.log⟩) :
    passesCollected pow10 params (rs ++ [r]) fs = true ↔
      Accepts pow10 ⟨last, r.linear, r.log⟩ params ∧ ∀ f ∈ fs, f params = true := by
  have hcell : ({ r with func := (fs.getLast?).getD r.func } : Registered) = ⟨last, r.linear, r.log⟩ := by
    rcases hlast with ⟨rfl, rfl⟩ | ⟨fs', rfl⟩ <;> simp
  have hc' : NoClash [⟨last, r.linear, r.log⟩] := by
    intro a ha b hb n hn
    simp only [List.mem_singleton] at ha hb
    subst ha hb
    exact hc r (by simp) r (by simp) n hn
  obtain ⟨h1, -⟩ := wrapper_ok pow10 _ hc' _ (List.mem_singleton_self _) hown params Dict.empty
    (by intro n v h; simp [Dict.empty] at h)
  unfold passesCollected checkCollected
  simp only [List.getLast?_concat, hcell, List.length_append, List.length_singleton, callAgain_eq, Bool.and_eq_true, h1,
    List.all_eq_true]

theorem wrapper_full (pow10 : ℚ → ℚ) (r : Registered) (params new : Dict)
    (hp : ∀ n, n ∈ r.linear ∨ n ∈ r.log → (params n).isSome)
    (hn : ∀ n, n ∈ r.linear ∨ n ∈ r.log → (new n).isSome) :
    wrapper pow10 r params new = (r.func new, new) := by
  have hf : ∀ (f : ℚ → ℚ) ns, (∀ n ∈ ns, (new n).isSome) → fill params f ns new = new := by
    intro f ns h
    funext n
    rw [fill_lookup]
    cases h' : new n with
    | some v => rfl
    | none =>
      have : n ∉ ns := fun hm => by have := h n hm; simp [h'] at this
      simp [this]
  have h1 : Constraints.subset r.linear params = true := (subset_iff _ _).2 fun n h => hp n (.inl h)
  have h2 : Constraints.subset r.log params = true := (subset_iff _ _).2 fun n h => hp n (.inr h)
  unfold wrapper
  simp only [h1, h2, Bool.not_true, Bool.false_eq_true, if_false, hf id r.linear fun n h => hn n (.inl h),
    hf pow10 r.log fun n h => hn n (.inr h)]

theorem wrapper_fills (pow10 : ℚ → ℚ) (r : Registered) (params new : Dict)
    (hp : ∀ n, n ∈ r.linear ∨ n ∈ r.log → (params n).isSome) :
    ∀ n, n ∈ r.linear ∨ n ∈ r.log → ((wrapper pow10 r params new).2 n).isSome := by
  intro n hn
  have h1 : Constraints.subset r.linear params = true := (subset_iff _ _).2 fun n h => hp n (.inl h)
  have h2 : Constraints.subset r.log params = true := (subset_iff _ _).2 fun n h => hp n (.inr h)
  unfold wrapper
  simp only [h1, h2, Bool.not_true, Bool.false_eq_true, if_false]
  rw [fill_lookup]
  cases hf : fill params id r.linear new n with
  | some v => rfl
  | none =>
    have h := hp n hn
    rcases hn with hn | hn
    · rw [fill_lookup] at hf
      cases h' : new n with
      | some v => rw [h'] at hf; cases hf
      | none => rw [h'] at hf; simp only [hn, if_true, Option.map_id, id] at hf; simp [hf] at h
    · simp [hn, h]

/-- C09, negation: when the checks are collected first, the registered part of the verdict is, for all parameter
combinations, the one on the first combination checked; only the appended functions see the others.  (All combinations
have all the parameters, as those of a population.) -/
theorem C09_collected_stale (pow10 : ℚ → ℚ) (rs : List Registered) (r : Registered)
    (fs : List (Dict → Bool)) (last : Dict → Bool)
    (hlast : (fs = [] ∧ last = r.func) ∨ ∃ fs', fs = fs' ++ [last])
    (hc : NoClash [r]) (hown : ReadsOwn ⟨last, r.linear, r.log⟩) (first : Dict) (more : List Dict)
    (hall : ∀ params ∈ first :: more, ∀ n, n ∈ r.linear ∨ n ∈ r.log → (params n).isSome) :
    verdicts pow10 (rs ++ [r]) fs Dict.empty (first :: more) =
      (first :: more).map fun params => last (ownDict pow10 r first) && fs.all fun f => f params := by
  have hcell : ({ r with func := (fs.getLast?).getD r.func } : Registered) = ⟨last, r.linear, r.log⟩ := by
    rcases hlast with ⟨rfl, rfl⟩ | ⟨fs', rfl⟩ <;> simp
  have hc' : NoClash [⟨last, r.linear, r.log⟩] := by
    intro a ha b hb n hn
    simp only [List.mem_singleton] at ha hb
    subst ha hb
    exact hc r (by simp) r (by simp) n hn
  have hcheck : ∀ params new, checkCollected pow10 (rs ++ [r]) fs params new =
      ((wrapper pow10 ⟨last, r.linear, r.log⟩ params new).1 && fs.all fun f => f params,
        (wrapper pow10 ⟨last, r.linear, r.log⟩ params new).2) := by
    intro params new
    unfold checkCollected
    simp only [List.getLast?_concat, hcell, List.length_append, List.length_singleton, callAgain_eq]
  -- the verdict on the first combination
  have h1 : (wrapper pow10 ⟨last, r.linear, r.log⟩ first Dict.empty).1 = last (ownDict pow10 r first) := by
    obtain ⟨h, -⟩ := wrapper_ok pow10 _ hc' _ (List.mem_singleton_self _) hown first Dict.empty
      (by intro n v h; simp [Dict.empty] at h)
    have hiff : Accepts pow10 ⟨last, r.linear, r.log⟩ first ↔ last (ownDict pow10 r first) = true := by
      constructor
      · rintro (⟨n, hn, hnone⟩ | h)
        · have := hall first (by simp) n hn
          simp [hnone] at this
        · exact h
      · exact .inr
    rw [hiff] at h
    cases h2 : (wrapper pow10 ⟨last, r.linear, r.log⟩ first Dict.empty).1 <;>
      cases h3 : last (ownDict pow10 r first) <;> simp [h2, h3] at h ⊢
  have hrest : ∀ (more : List Dict) (new : Dict),
      (∀ params ∈ more, ∀ n, n ∈ r.linear ∨ n ∈ r.log → (params n).isSome) →
      (∀ n, n ∈ r.linear ∨ n ∈ r.log → (new n).isSome) →
      verdicts pow10 (rs ++ [r]) fs new more =
        more.map fun params => last new && fs.all fun f => f params := by
    intro more new hm hn
    induction more with
    | nil => rfl
    | cons params more ih =>
      have hw := wrapper_full pow10 ⟨last, r.linear, r.log⟩ params new (hm params (by simp)) hn
      unfold verdicts
      simp only [hcheck, hw, List.map_cons]
      rw [ih fun p hp => hm p (by simp [hp])]
  have hfull := wrapper_fills pow10 ⟨last, r.linear, r.log⟩ first Dict.empty (hall first (by simp))
  unfold verdicts
  simp only [hcheck, List.map_cons, h1]
  rw [hrest more _ (fun p hp => hall p (by simp [hp])) hfull]
  -- the dict is that of the first combination
  have h2 := wrapper_full pow10 ⟨last, r.linear, r.log⟩ first _ (hall first (by simp)) hfull
  rw [wrapper_again] at h2
  have h3 : last (wrapper pow10 ⟨last, r.linear, r.log⟩ first Dict.empty).2 = last (ownDict pow10 r first) := by
    rw [← h1]
    exact (congrArg Prod.fst h2).symm
  rw [h3]

/-- `a < 5` was accepted for 2, and so it is for 9. -/
example : verdicts id [⟨below "a" 5, ["a"], []⟩] [] Dict.empty [fun _ => some 2, fun _ => some 9] = [true, true] := by
  decide +kernel

example := C09_collected_stale id [] ⟨below "a" 5, ["a"], []⟩ [] (below "a" 5) (.inl ⟨rfl, rfl⟩)
  (by intro a _ b hb n _; simp only [List.mem_singleton] at hb; subst hb; simp)
  (by intro d d' h; simp only [below, h "a" (by simp)]) (fun _ => some 2) [fun _ => some 9]
  (by intro p hp n _; simp only [List.mem_cons, List.not_mem_nil, or_false] at hp; rcases hp with rfl | rfl <;> rfl)

example := C09_collected_iff id exParams [⟨below "b" 5, ["b"], []⟩] ⟨below "a" 5, ["a"], []⟩ [] (below "a" 5)
  (.inl ⟨rfl, rfl⟩) (by intro a _ b hb n _; simp only [List.mem_singleton] at hb; subst hb; simp)
  (by intro d d' h; simp only [below, h "a" (by simp)])

/-- Non-vacuity of `C09_lazy_partial`: two methods, one linear and one log name. -/
example : NoClash [⟨below "a" 5, ["a"], []⟩, ⟨below "b" 50, [], ["b"]⟩] ∧
    (∀ r ∈ ([⟨below "a" 5, ["a"], []⟩, ⟨below "b" 50, [], ["b"]⟩] : List Registered), ReadsOwn r) := by
  constructor
  · intro r hr r' hr' n hn
    simp only [List.mem_cons, List.not_mem_nil, or_false] at hr hr'
    rcases hr with rfl | rfl <;> rcases hr' with rfl | rfl <;> simp_all
  · intro r hr d d' h
    simp only [List.mem_cons, List.not_mem_nil, or_false] at hr
    rcases hr with rfl | rfl
    · simp only [below, h "a" (by simp)]
    · simp only [below, h "b" (by simp)]

example := C08_rejects_iff exParams [⟨"a", "b", 3, 0, 1 / 2⟩] (by decide)

example := C09_lazy_partial (fun x => x) (fun _ => some 3) [⟨below "a" 5, ["a"], []⟩, ⟨below "b" 50, [], ["b"]⟩]
  [below "a" 4] (by
    intro r hr r' hr' n hn
    simp only [List.mem_cons, List.not_mem_nil, or_false] at hr hr'
    rcases hr with rfl | rfl <;> rcases hr' with rfl | rfl <;> simp_all)
  (by
    intro r hr d d' h
    simp only [List.mem_cons, List.not_mem_nil, or_false] at hr
    rcases hr with rfl | rfl
    · simp only [below, h "a" (by simp)]
    · simp only [below, h "b" (by simp)])

end Ade
