import Mathlib.Data.String.Basic
import Verif.Model.ParamManager
import Verif.Spec.Limit
import Mathlib.Tactic.Linarith
import Mathlib.Tactic.FieldSimp
import Mathlib.Tactic.Ring
import Mathlib.Data.List.Sort
import Mathlib.Data.List.Perm.Basic
import Mathlib.Data.List.Nodup

/-!
# Properties C04-C07, C10: the parameter manager
-/

set_option autoImplicit false

namespace Ade
open ParamManager

/-- Bounds in which no lower bound exceeds its upper bound. -/
def GoodBounds (bs : List Bound) : Prop := ∀ b ∈ bs, b.lo ≤ b.hi

/-- Specification: every value lies in its interval, and there are as many values as intervals. -/
def Within (bs : List Bound) (vs : List ℚ) : Prop :=
  List.Forall₂ (fun (b : Bound) (v : ℚ) => b.lo ≤ v ∧ v ≤ b.hi) bs vs

/-! ## C04 -/

theorem limit1_mem (b : Bound) (hb : b.lo ≤ b.hi) (v : ℚ) : b.lo ≤ limit1 b v ∧ limit1 b v ≤ b.hi := by
  unfold limit1
  exact ⟨le_min (le_max_right _ _) hb, min_le_right _ _⟩

/-- C04: limited values are always within the bounds. -/
theorem C04_limit_within (bs : List Bound) (vs : List ℚ) (hb : GoodBounds bs)
    (hlen : vs.length = bs.length) : Within bs (limit bs vs) := by
  induction bs generalizing vs with
  | nil => simp [limit, Within]
  | cons b bs ih =>
    cases vs with
    | nil => simp at hlen
    | cons v vs =>
      simp only [limit, List.zipWith_cons_cons, Within, List.forall₂_cons]
      exact ⟨limit1_mem b (hb b (by simp)) v,
        ih vs (fun b' h => hb b' (List.mem_cons_of_mem _ h)) (by simpa using hlen)⟩

example : GoodBounds [⟨-5, 5⟩, ⟨0, 1⟩] ∧
    limit [⟨-5, 5⟩, ⟨0, 1⟩] [-100, 17/10] = [-5, 3/10] := by
  constructor
  · intro b hb; simp at hb; rcases hb with rfl | rfl <;> norm_num
  · norm_num [limit, limit1]

/-! ## C05 -/

/-- C05: legal vectors are unchanged. -/
theorem C05_limit_legal (bs : List Bound) (vs : List ℚ) (h : Within bs vs) : limit bs vs = vs := by
  induction h with
  | nil => rfl
  | cons hbv _ ih =>
    simp only [limit, List.zipWith_cons_cons, List.cons.injEq]
    refine ⟨?_, ih⟩
    have h1 := hbv.1; have h2 := hbv.2
    unfold limit1
    simp [not_lt.2 h1, not_lt.2 h2, h1, h2]

/-- C05: limiting twice equals limiting once. -/
theorem C05_limit_idempotent (bs : List Bound) (vs : List ℚ) (hb : GoodBounds bs)
    (hlen : vs.length = bs.length) : limit bs (limit bs vs) = limit bs vs :=
  C05_limit_legal bs _ (C04_limit_within bs vs hb hlen)

/-- C05: where an illegal value goes.  With `w` the width of the interval: up to `w` outside it is
mirrored at the bound it crossed; between `w` and `2w` below it is mirrored at both bounds; everything
further out (more than `w` above or `2w` below) goes to the lower bound. -/
theorem C05_limit_reflects (b : Bound) (hb : b.lo ≤ b.hi) (d : ℚ) (hd : 0 < d) :
    (d ≤ b.hi - b.lo → limit1 b (b.lo - d) = b.lo + d ∧ limit1 b (b.hi + d) = b.hi - d) ∧
    (b.hi - b.lo < d → limit1 b (b.hi + d) = b.lo) ∧
    (b.hi - b.lo < d → d ≤ 2 * (b.hi - b.lo) → limit1 b (b.lo - d) = b.lo + (2 * (b.hi - b.lo) - d)) ∧
    (2 * (b.hi - b.lo) < d → limit1 b (b.lo - d) = b.lo) := by
  unfold limit1
  refine ⟨fun h => ⟨?_, ?_⟩, fun h => ?_, fun h h2 => ?_, fun h => ?_⟩
  · have e1 : b.lo - d < b.lo := by linarith
    simp only [e1, if_true]
    have e2 : ¬ (2 * b.lo - (b.lo - d) > b.hi) := by linarith
    simp only [e2, if_false]
    rw [max_eq_left (by linarith), min_eq_left (by linarith)]; ring
  · have e1 : ¬ (b.hi + d < b.lo) := by linarith
    simp only [e1, if_false]
    have e2 : b.hi + d > b.hi := by linarith
    simp only [e2, if_true]
    rw [max_eq_left (by linarith), min_eq_left (by linarith)]; ring
  · have e1 : ¬ (b.hi + d < b.lo) := by linarith
    simp only [e1, if_false]
    have e2 : b.hi + d > b.hi := by linarith
    simp only [e2, if_true]
    rw [max_eq_right (by linarith), min_eq_left (by linarith)]
  · have e1 : b.lo - d < b.lo := by linarith
    simp only [e1, if_true]
    have e2 : 2 * b.lo - (b.lo - d) > b.hi := by linarith
    simp only [e2, if_true]
    rw [max_eq_left (by linarith), min_eq_left (by linarith)]; ring
  · have e1 : b.lo - d < b.lo := by linarith
    simp only [e1, if_true]
    have e2 : 2 * b.lo - (b.lo - d) > b.hi := by linarith
    simp only [e2, if_true]
    rw [max_eq_right (by linarith), min_eq_left (by linarith)]

/-- C05: the same as one specification, for every position of a vector, legal or not. -/
theorem C05_limit_spec (bs : List Bound) (vs : List ℚ) (hb : GoodBounds bs)
    (hlen : vs.length = bs.length) :
    (limit bs vs).length = bs.length ∧
    ∀ (k : ℕ) (b : Bound) (v w : ℚ), bs[k]? = some b → vs[k]? = some v → (limit bs vs)[k]? = some w →
      LimitedTo b.lo b.hi v w := by
  refine ⟨by simp [limit, hlen], fun k b v w h1 h2 h3 => ?_⟩
  have hw : w = limit1 b v := by
    simp only [limit, List.getElem?_zipWith, h1, h2] at h3
    simpa using h3.symm
  have hb' := hb b (List.mem_of_getElem? h1)
  subst hw
  unfold limit1
  by_cases c1 : v < b.lo
  · simp only [c1, if_true]
    by_cases c2 : 2 * b.lo - v > b.hi
    · simp only [c2, if_true]
      have := LimitedTo.farBelow c1 c2
      rwa [max_comm, ← min_eq_left (a := max (2 * b.hi - (2 * b.lo - v)) b.lo) (b := b.hi)
        (max_le (by linarith) hb')] at this
    · simp only [c2, if_false]
      have := LimitedTo.below c1 (not_lt.mp c2)
      rwa [max_eq_left (by linarith), min_eq_left (not_lt.mp c2)]
  · simp only [c1, if_false]
    by_cases c2 : v > b.hi
    · simp only [c2, if_true]
      have := LimitedTo.above (not_lt.mp c1) c2
      rwa [max_comm, ← min_eq_left (a := max (2 * b.hi - v) b.lo) (b := b.hi)
        (max_le (by linarith) hb')] at this
    · simp only [c2, if_false]
      rw [max_eq_left (not_lt.mp c1), min_eq_left (not_lt.mp c2)]
      exact .inside (not_lt.mp c1) (not_lt.mp c2)

example : limit1 ⟨0, 10⟩ (-3) = 3 ∧ limit1 ⟨0, 10⟩ 13 = 7 ∧ limit1 ⟨0, 10⟩ (-13) = 7 ∧
    limit1 ⟨0, 10⟩ (-25) = 0 ∧ limit1 ⟨0, 10⟩ 25 = 0 := by norm_num [limit1]

/-! ## C06 -/

/-- The unit cube of a dimension. -/
def UnitCube (us : List ℚ) : Prop := ∀ u ∈ us, 0 ≤ u ∧ u ≤ 1

/-- C06: unit-cube points scale into the bounds. -/
theorem C06_fromUnity_within (bs : List Bound) (us : List ℚ) (hb : GoodBounds bs)
    (hlen : us.length = bs.length) (hu : UnitCube us) : Within bs (fromUnity bs us) := by
  induction bs generalizing us with
  | nil => simp [fromUnity, Within]
  | cons b bs ih =>
    cases us with
    | nil => simp at hlen
    | cons u us =>
      simp only [fromUnity, List.zipWith_cons_cons, Within, List.forall₂_cons]
      refine ⟨?_, ih us (fun b' h => hb b' (List.mem_cons_of_mem _ h)) (by simpa using hlen)
        (fun u' h => hu u' (List.mem_cons_of_mem _ h))⟩
      have hw := hb b (by simp)
      obtain ⟨h0, h1⟩ := hu u (by simp)
      have hs : 0 ≤ b.scale := by unfold Bound.scale; linarith
      have := mul_nonneg hs h0
      have h2 := mul_nonneg hs (sub_nonneg.2 h1)
      constructor
      · unfold fromUnity1; linarith
      · unfold fromUnity1 Bound.scale at *; linarith

/-- C06: scaling up and back is the identity when no range is degenerate. -/
theorem C06_round_trip (bs : List Bound) (us : List ℚ) (hb : ∀ b ∈ bs, b.lo ≠ b.hi)
    (hlen : us.length = bs.length) : toUnity bs (fromUnity bs us) = us.map some := by
  induction bs generalizing us with
  | nil => simp at hlen; subst hlen; simp [toUnity]
  | cons b bs ih =>
    cases us with
    | nil => simp at hlen
    | cons u us =>
      have hne := hb b (by simp)
      have hs : b.scale ≠ 0 := by
        unfold Bound.scale; intro h; exact hne (by linarith)
      simp only [toUnity, fromUnity, List.zipWith_cons_cons, List.map_cons, List.cons.injEq]
      refine ⟨?_, ih us (fun b' h => hb b' (List.mem_cons_of_mem _ h)) (by simpa using hlen)⟩
      simp only [toUnity1, fromUnity1, hs, if_false, Option.some.injEq]
      field_simp; ring

/-- C06: conversely, legal vectors map into the unit cube and back to themselves. -/
theorem C06_round_trip_back (bs : List Bound) (vs : List ℚ) (hb : ∀ b ∈ bs, b.lo < b.hi)
    (hv : Within bs vs) :
    ∃ us, toUnity bs vs = us.map some ∧ UnitCube us ∧ fromUnity bs us = vs := by
  induction hv with
  | nil => exact ⟨[], rfl, by simp [UnitCube], rfl⟩
  | @cons b v bs vs hbv _ ih =>
    obtain ⟨us, h1, h2, h3⟩ := ih (fun b' h => hb b' (List.mem_cons_of_mem _ h))
    have hlt := hb b (by simp)
    have hs : 0 < b.scale := by unfold Bound.scale; linarith
    have hs' : b.scale ≠ 0 := hs.ne'
    refine ⟨(v - b.lo) / b.scale :: us, ?_, ?_, ?_⟩
    · simp only [toUnity, List.zipWith_cons_cons, List.map_cons, List.cons.injEq]
      exact ⟨by simp [toUnity1, hs'], h1⟩
    · intro u hu
      rcases List.mem_cons.1 hu with rfl | hu
      · constructor
        · exact div_nonneg (by linarith [hbv.1]) hs.le
        · rw [div_le_one₀ hs]; unfold Bound.scale; linarith [hbv.2]
      · exact h2 u hu
    · simp only [fromUnity, List.zipWith_cons_cons, List.cons.injEq]
      refine ⟨?_, h3⟩
      unfold fromUnity1; field_simp; ring

example : fromUnity [⟨-5, 5⟩, ⟨0, 1/2⟩] [1/4, 1] = [-5/2, 1/2] ∧
    toUnity [⟨-5, 5⟩, ⟨0, 1/2⟩] [-5/2, 1/2] = [some (1/4), some 1] := by
  norm_num [fromUnity, fromUnity1, toUnity, toUnity1, Bound.scale]

/-! ## C07 -/

/-- Specification of the dict handed to constraints: `d` maps each name to the value at its position
and nothing else. -/
def IsParamsOf (names : List String) (values : List ℚ) (d : Dict) : Prop :=
  ∀ n x, d n = some x ↔ ∃ k : ℕ, names[k]? = some n ∧ values[k]? = some x

theorem foldl_set_lookup (l : List (String × ℚ)) (hnd : (l.map Prod.fst).Nodup) (d : Dict) (n : String)
    (x : ℚ) : (l.foldl (fun d nv => Dict.set d nv.1 nv.2) d) n = some x ↔
      (n, x) ∈ l ∨ (n ∉ l.map Prod.fst ∧ d n = some x) := by
  induction l generalizing d with
  | nil => simp
  | cons a l ih =>
    simp only [List.map_cons, List.nodup_cons] at hnd
    rw [List.foldl_cons, ih hnd.2]
    obtain ⟨m, y⟩ := a
    simp only [Dict.set, List.mem_cons, Prod.mk.injEq, List.map_cons]
    by_cases hnm : n = m
    · subst hnm
      simp only [if_true, Option.some.injEq, true_and, true_or, not_true, false_and, or_false]
      constructor
      · rintro (h | ⟨_, h⟩)
        · exact .inr h
        · exact .inl h.symm
      · rintro (h | h)
        · exact .inr ⟨hnd.1, h.symm⟩
        · exact .inl h
    · simp [hnm]

/-- The dict built from distinct names is the specified one. -/
theorem C07_params_dict (names : List String) (values : List ℚ) (hnd : names.Nodup)
    (hlen : values.length = names.length) : IsParamsOf names values (paramsOf names values) := by
  intro n x
  have hmap : (names.zip values).map Prod.fst = names := List.map_fst_zip (by omega)
  unfold paramsOf
  rw [foldl_set_lookup _ (by rw [hmap]; exact hnd)]
  simp only [Dict.empty, reduceCtorEq, and_false, or_false]
  rw [List.mem_iff_getElem?]
  simp only [List.getElem?_zip_eq_some]

theorem passes_go_iff (d : Dict) (cs : List (Dict → Bool)) :
    passesConstraints.go d cs = true ↔ ∀ c ∈ cs, c d = true := by
  induction cs with
  | nil => simp [passesConstraints.go]
  | cons f fs ih => unfold passesConstraints.go; cases hf : f d <;> simp [ih, hf]

/-- C07: a vector passes exactly when every constraint accepts the dict of named values. -/
theorem C07_passes_iff (names : List String) (hnd : names.Nodup) (cs : List (Dict → Bool))
    (values : List ℚ) (hlen : values.length = names.length) :
    passesConstraints names cs values = true ↔
      ∃ d, IsParamsOf names values d ∧ ∀ c ∈ cs, c d = true := by
  have key : passesConstraints names cs values = true ↔ ∀ c ∈ cs, c (paramsOf names values) = true := by
    unfold passesConstraints
    cases cs with
    | nil => simp
    | cons c cs => simpa using passes_go_iff _ (c :: cs)
  rw [key]
  constructor
  · exact fun h => ⟨_, C07_params_dict names values hnd hlen, h⟩
  · rintro ⟨d, hd, h⟩
    have : d = paramsOf names values := by
      funext n
      have h2 := C07_params_dict names values hnd hlen
      cases hdn : d n with
      | none =>
        cases hp : paramsOf names values n with
        | none => rfl
        | some x => rw [(hd n x).2 ((h2 n x).1 hp)] at hdn; cases hdn
      | some x => rw [(h2 n x).2 ((hd n x).1 hdn)]
    rw [← this]; exact h

/-- C07: the verdict does not depend on the order (or repetition) of the constraints. -/
theorem C07_order_irrelevant (names : List String) (cs cs' : List (Dict → Bool)) (values : List ℚ)
    (h : ∀ c, c ∈ cs ↔ c ∈ cs') :
    passesConstraints names cs values = passesConstraints names cs' values := by
  have key : ∀ cs, passesConstraints names cs values = true ↔
      ∀ c ∈ cs, c (paramsOf names values) = true := by
    intro cs
    unfold passesConstraints
    cases cs with
    | nil => simp
    | cons c cs => simpa using passes_go_iff _ (c :: cs)
  rw [Bool.eq_iff_iff, key, key]
  exact ⟨fun hh c hc => hh c ((h c).2 hc), fun hh c hc => hh c ((h c).1 hc)⟩

/-- C07: installing a list with a non-callable object raises and changes nothing; otherwise exactly the
supplied callables are in force. -/
theorem C07_setConstraints (current : List (Dict → Bool)) (args : List Obj) :
    (Obj.other ∈ args →
      setConstraints args = .error "ValueError" ∧ afterSetConstraints current args = current) ∧
    ∀ fs : List (Dict → Bool), args = fs.map Obj.callable → afterSetConstraints current args = fs := by
  constructor
  · intro h
    have : args.all Obj.isCallable = false := by
      rw [List.all_eq_false]; exact ⟨_, h, by simp [Obj.isCallable]⟩
    simp [setConstraints, afterSetConstraints, this]
  · rintro fs rfl
    have : (fs.map Obj.callable).all Obj.isCallable = true := by
      simp [List.all_map, Obj.isCallable]
    simp only [afterSetConstraints, setConstraints, this, if_true, List.filterMap_map]
    induction fs with
    | nil => rfl
    | cons f fs ih => simp_all

example : passesConstraints ["a", "b"] [fun d => (d "a") == some 1, fun d => (d "b") == some 2] [1, 2]
    = true ∧
    passesConstraints ["a", "b"] [fun d => (d "a") == some 1, fun d => (d "b") == some 3] [1, 2]
    = false := by decide

/-! ## C10 -/

/-- C10: with distinct names, sorted enumeration visits each index exactly once, and the names met are
in non-decreasing order. -/
theorem C10_sorted_enumeration {α : Type} [LinearOrder α] (names : List α) (hnd : names.Nodup) :
    (sortedNameIndices names).Perm (List.range names.length) ∧
    (∃ sorted : List α, (sortedNameIndices names).map (fun k => names[k]?) = sorted.map some ∧
      sorted.Pairwise (· ≤ ·)) := by
  have hperm : (names.mergeSort (fun a b => decide (a ≤ b))).Perm names := List.mergeSort_perm _ _
  constructor
  · have h1 : (sortedNameIndices names).Perm (names.map (fun n => names.idxOf n)) := hperm.map _
    refine h1.trans (List.Perm.of_eq ?_)
    apply List.ext_getElem
    · simp
    · intro k h2 h3
      simp only [List.getElem_map, List.getElem_range]
      exact hnd.idxOf_getElem k (by simpa using h2)
  · refine ⟨names.mergeSort (fun a b => decide (a ≤ b)), ?_, ?_⟩
    · unfold sortedNameIndices
      rw [List.map_map]
      apply List.map_congr_left
      intro n hn
      have : n ∈ names := hperm.mem_iff.1 hn
      simp [this]
    · have := List.pairwise_mergeSort (le := fun (a b : α) => decide (a ≤ b))
        (fun a b c h1 h2 => by simp at *; exact le_trans h1 h2)
        (fun a b => by simp; exact le_total a b) names
      simpa using this

/-- C10: with values, each parameter is enumerated once with its own name and value. -/
theorem C10_sorted_with_values {α : Type} [LinearOrder α] (names : List α) (hnd : names.Nodup)
    (values : List ℚ) (k : ℕ) (n : α) (v : ℚ) :
    (k, n, v) ∈ sortedNamerator names values ↔ names[k]? = some n ∧ values[k]? = some v := by
  have hp := (C10_sorted_enumeration names hnd).1
  unfold sortedNamerator
  rw [List.mem_filterMap]
  constructor
  · rintro ⟨j, _, h⟩
    cases h1 : names[j]? <;> cases h2 : values[j]? <;> simp [h1, h2] at h
    obtain ⟨rfl, rfl, rfl⟩ := h
    exact ⟨h1, h2⟩
  · rintro ⟨h1, h2⟩
    refine ⟨k, ?_, by simp [h1, h2]⟩
    rw [hp.mem_iff, List.mem_range]
    exact (List.getElem?_eq_some_iff.1 h1).1

/-- C10: and in the order of the names, without repetition. -/
theorem C10_sorted_with_values_order {α : Type} [LinearOrder α] (names : List α) (hnd : names.Nodup)
    (values : List ℚ) (hlen : values.length = names.length) :
    (sortedNamerator names values).Pairwise (fun p q => p.2.1 < q.2.1) ∧
    (sortedNamerator names values).length = names.length := by
  obtain ⟨hp, sorted, hs1, hs2⟩ := C10_sorted_enumeration names hnd
  have hmap : sortedNamerator names values = (sortedNameIndices names).filterMap fun k =>
      match names[k]?, values[k]? with
      | some n, some v => some (k, n, v)
      | _, _ => none := rfl
  have hall : ∀ k ∈ sortedNameIndices names, ∃ n v, names[k]? = some n ∧ values[k]? = some v := by
    intro k hk
    have hk := List.mem_range.mp (hp.mem_iff.mp hk)
    exact ⟨_, _, List.getElem?_eq_getElem hk, List.getElem?_eq_getElem (hlen ▸ hk)⟩
  have hlens : (sortedNameIndices names).length = names.length := by
    rw [hp.length_eq, List.length_range]
  have key : ∀ (ks : List ℕ) (ss : List α), (∀ k ∈ ks, ∃ n v, names[k]? = some n ∧ values[k]? = some v) →
      ks.map (fun k => names[k]?) = ss.map some →
      ((ks.filterMap fun k =>
        match names[k]?, values[k]? with
        | some n, some v => some (k, n, v)
        | _, _ => none).map fun p => p.2.1) = ss := by
    intro ks
    induction ks with
    | nil =>
      intro ss _ h
      cases ss with
      | nil => rfl
      | cons s ss => simp at h
    | cons k ks ih =>
      intro ss h1 h2
      cases ss with
      | nil => simp at h2
      | cons s ss =>
        obtain ⟨n, v, e1, e2⟩ := h1 k List.mem_cons_self
        simp only [List.map_cons, List.cons.injEq] at h2
        rw [List.filterMap_cons]
        simp only [e1, e2, List.map_cons]
        rw [e1] at h2
        rw [ih ss (fun k hk => h1 k (List.mem_cons_of_mem _ hk)) h2.2, Option.some.inj h2.1]
  have hk := key _ sorted hall hs1
  rw [← hmap] at hk
  have hsn : sorted.Nodup := by
    have h3 : (sorted.map some).Nodup := by
      rw [← hs1]
      refine (List.nodup_map_iff_inj_on (hp.nodup_iff.mpr List.nodup_range)).mpr ?_
      intro a ha b hb hab
      have ha := List.mem_range.mp (hp.mem_iff.mp ha)
      have hb := List.mem_range.mp (hp.mem_iff.mp hb)
      rw [List.getElem?_eq_getElem ha, List.getElem?_eq_getElem hb, Option.some.injEq] at hab
      exact (List.Nodup.getElem_inj_iff hnd).mp hab
    exact List.Nodup.of_map _ h3
  constructor
  · have : sorted.Pairwise (· < ·) := by
      have := hs2.and hsn
      exact this.imp fun h => lt_of_le_of_ne h.1 h.2
    rw [← hk, List.pairwise_map] at this
    exact this
  · have h4 := congrArg List.length hk
    have h5 := congrArg List.length hs1
    simp only [List.length_map] at h4 h5
    omega

example : sortedNamerator [3, 1, 2] [30, 10, 20] = [(1, 1, 10), (2, 2, 20), (0, 3, 30)] := by
  simp [sortedNamerator, sortedNameIndices, List.mergeSort, List.MergeSort.Internal.splitInTwo]

/-- C10 needs distinct names: with a repeated name one parameter is visited twice, the other never. -/
theorem C10_duplicates_break : ¬ (sortedNameIndices [7, 7]).Perm (List.range 2) := by
  have h : sortedNameIndices [7, 7] = [0, 0] := by
    simp [sortedNameIndices, List.mergeSort, List.MergeSort.Internal.splitInTwo]
  rw [h]; decide

example : (["b", "c", "a"] : List String).Nodup := by decide

/-- Bounds of two parameters. -/
def demoBounds : List Bound := [⟨-5, 5⟩, ⟨0, 1 / 2⟩]

theorem demoBounds_good : GoodBounds demoBounds := by
  intro b hb; simp [demoBounds] at hb; rcases hb with rfl | rfl <;> norm_num

example := C05_limit_legal demoBounds [3, 1 / 4] (by
  refine .cons ?_ (.cons ?_ .nil) <;> norm_num)

example := C05_limit_idempotent demoBounds [-100, 17 / 10] demoBounds_good rfl

example := C05_limit_reflects ⟨0, 10⟩ (by norm_num) 3 (by norm_num)

example := C06_fromUnity_within demoBounds [1 / 4, 1] demoBounds_good rfl (by
  intro u hu; simp at hu; rcases hu with rfl | rfl <;> norm_num)

example := C06_round_trip demoBounds [1 / 4, 1]
  (by intro b hb; simp [demoBounds] at hb; rcases hb with rfl | rfl <;> norm_num) rfl

example := C07_params_dict ["b", "a"] [1, 2] (by decide) rfl

example := C07_passes_iff ["b", "a"] (by decide) [fun d => d "a" == some 2] [1, 2] rfl

example := C07_order_irrelevant ["b", "a"] [fun d => d "a" == some 2, fun d => d "b" == some 1]
  [fun d => d "b" == some 1, fun d => d "a" == some 2] [1, 2] (by simp [or_comm])

example := C10_sorted_enumeration ["b", "c", "a"] (by decide)

example := C10_sorted_with_values ["b", "c", "a"] (by decide) [1, 2, 3] 0 "b" 1

end Ade
