import Verif.Model.Specs

/-!
# Lookup in specs (C50)
-/

set_option autoImplicit false

namespace Ade
namespace Specs

/-- Specification: `At t path u` says that `u` is stored at the given path of keys below `t`. -/
inductive At : Tree → List Key → Tree → Prop where
  | here (t : Tree) : At t [] t
  | step (es : List (Key × Tree)) (k : Key) (t : Tree) (ks : List Key) (u : Tree) :
      (k, t) ∈ es → At t ks u → At (.dict es) (k :: ks) u

/-- All dicts in a tree have distinct keys. -/
inductive Wf : Tree → Prop where
  | leaf (v : Scalar) : Wf (.leaf v)
  | seq (xs : List Tree) : (∀ x ∈ xs, Wf x) → Wf (.seq xs)
  | dict (es : List (Key × Tree)) : (es.map Prod.fst).Nodup → (∀ p ∈ es, Wf p.2) → Wf (.dict es)

/-! ### Dicts -/

theorem lookup_mem (es : List (Key × Tree)) (k : Key) (t : Tree) (h : lookup es k = some t) :
    (k, t) ∈ es := by
  induction es with
  | nil => simp [lookup] at h
  | cons p es ih =>
    obtain ⟨k', t'⟩ := p
    unfold lookup at h
    split_ifs at h with hk
    · simp only [Option.some.injEq] at h
      subst hk h
      exact List.mem_cons_self
    · exact List.mem_cons_of_mem _ (ih h)

theorem lookup_none_iff (es : List (Key × Tree)) (k : Key) :
    lookup es k = none ↔ k ∉ es.map Prod.fst := by
  induction es with
  | nil => simp [lookup]
  | cons p es ih =>
    obtain ⟨k', t'⟩ := p
    unfold lookup
    split_ifs with hk
    · simp [hk]
    · rw [ih]
      simp [Ne.symm hk]

theorem lookup_of_mem (es : List (Key × Tree)) (k : Key) (t : Tree)
    (hd : (es.map Prod.fst).Nodup) (h : (k, t) ∈ es) : lookup es k = some t := by
  induction es with
  | nil => simp at h
  | cons p es ih =>
    obtain ⟨k', t'⟩ := p
    simp only [List.map_cons, List.nodup_cons] at hd
    unfold lookup
    rcases List.mem_cons.mp h with h | h
    · simp only [Prod.mk.injEq] at h
      simp [h.1, h.2]
    · have : k' ≠ k := by
        rintro rfl
        exact hd.1 (List.mem_map_of_mem (f := Prod.fst) h)
      rw [if_neg this]
      exact ih hd.2 h

theorem lookup_put (es : List (Key × Tree)) (k k' : Key) (t : Tree) :
    lookup (put es k t) k' = if k' = k then some t else lookup es k' := by
  induction es with
  | nil =>
    simp only [put, lookup]
    split_ifs with h1 h2 h2 <;> first | rfl | exact absurd h1.symm h2 | exact absurd h2.symm h1
  | cons p es ih =>
    obtain ⟨a, b⟩ := p
    unfold put
    by_cases ha : a = k
    · rw [if_pos ha]
      simp only [lookup]
      subst ha
      split_ifs with h1 h2 h2 <;> first | rfl | exact absurd h1.symm h2 | exact absurd h2.symm h1
    · rw [if_neg ha]
      simp only [lookup]
      rw [ih]
      by_cases h1 : a = k'
      · subst h1
        simp [ha]
      · simp [h1]

theorem put_keys (es : List (Key × Tree)) (k : Key) (t : Tree) (x : Key) :
    x ∈ (put es k t).map Prod.fst ↔ x = k ∨ x ∈ es.map Prod.fst := by
  have h1 := lookup_none_iff (put es k t) x
  have h2 := lookup_none_iff es x
  rw [lookup_put] at h1
  by_cases hx : x = k
  · simp only [hx, if_true] at h1 ⊢
    simp only [reduceCtorEq, false_iff, not_not] at h1
    exact iff_of_true h1 (Or.inl trivial)
  · simp only [hx, if_false, false_or] at h1 ⊢
    exact not_iff_not.mp (h1.symm.trans h2)

theorem put_nodup (es : List (Key × Tree)) (k : Key) (t : Tree) (h : (es.map Prod.fst).Nodup) :
    ((put es k t).map Prod.fst).Nodup := by
  induction es with
  | nil => simp [put]
  | cons p es ih =>
    obtain ⟨a, b⟩ := p
    simp only [List.map_cons, List.nodup_cons] at h
    unfold put
    split_ifs with ha
    · subst ha
      simpa using h
    · simp only [List.map_cons, List.nodup_cons]
      refine ⟨?_, ih h.2⟩
      rw [put_keys]
      rintro (h1 | h1)
      · exact ha h1
      · exact h.1 h1

theorem put_mem (es : List (Key × Tree)) (k : Key) (t : Tree) (p : Key × Tree)
    (h : p ∈ put es k t) : p = (k, t) ∨ p ∈ es := by
  induction es with
  | nil => simpa [put] using h
  | cons q es ih =>
    obtain ⟨a, b⟩ := q
    unfold put at h
    split_ifs at h with ha
    · rcases List.mem_cons.mp h with h | h
      · exact Or.inl h
      · exact Or.inr (List.mem_cons_of_mem _ h)
    · rcases List.mem_cons.mp h with h | h
      · exact Or.inr (h ▸ List.mem_cons_self)
      · rcases ih h with h | h
        · exact Or.inl h
        · exact Or.inr (List.mem_cons_of_mem _ h)

theorem wf_put (es : List (Key × Tree)) (k : Key) (t : Tree) (h : Wf (.dict es)) (ht : Wf t) :
    Wf (.dict (put es k t)) := by
  cases h with
  | dict _ h1 h2 =>
    refine .dict _ (put_nodup es k t h1) fun p hp => ?_
    rcases put_mem es k t p hp with rfl | hp
    · exact ht
    · exact h2 p hp

theorem wf_nil : Wf (.dict []) := .dict _ (by simp) (by simp)

theorem wf_lookup (es : List (Key × Tree)) (k : Key) (t : Tree) (h : Wf (.dict es))
    (hl : lookup es k = some t) : Wf t := by
  cases h with
  | dict _ h1 h2 => exact h2 _ (lookup_mem es k t hl)

theorem wf_stack (es : List (Key × Tree)) (k : Key) (ks : List Key) (v : Tree)
    (es' : List (Key × Tree)) (h : Wf (.dict es)) (hv : Wf v) (hs : stack es k ks v = .ok es') :
    Wf (.dict es') := by
  induction ks generalizing es k es' with
  | nil =>
    simp only [stack, Except.ok.injEq] at hs
    rw [← hs]
    exact wf_put es k v h hv
  | cons k' ks' ih =>
    unfold stack at hs
    split at hs
    case h_1 hl =>
      cases hsub : stack [] k' ks' v with
      | error e => simp [hsub, bind, Except.bind] at hs
      | ok sub =>
        simp only [hsub, bind, Except.bind, pure, Except.pure, Except.ok.injEq] at hs
        rw [← hs]
        exact wf_put es k _ h (ih [] k' sub wf_nil hsub)
    case h_2 sub0 hl =>
      cases hsub : stack sub0 k' ks' v with
      | error e => simp [hsub, bind, Except.bind] at hs
      | ok sub =>
        simp only [hsub, bind, Except.bind, pure, Except.pure, Except.ok.injEq] at hs
        rw [← hs]
        exact wf_put es k _ h (ih sub0 k' sub (wf_lookup es k _ h hl) hsub)
    case h_3 xs hl =>
      split at hs
      · simp at hs
      · simp at hs
      · split_ifs at hs with hi
        simp only [Except.ok.injEq] at hs
        rw [← hs]
        refine wf_put es k _ h ?_
        have hx := wf_lookup es k _ h hl
        cases hx with
        | seq _ hx =>
          refine .seq _ fun x hx' => ?_
          rcases List.mem_or_eq_of_mem_set hx' with h1 | h1
          · exact hx x h1
          · exact h1 ▸ hv
    case h_4 hl =>
      split at hs <;> simp at hs

/-! ### Lookup -/

/-- The value at a path, if any. -/
def vAt (t : Tree) : List Key → Option Tree
  | [] => some t
  | k :: ks =>
    match t with
    | .dict es => (lookup es k).bind fun t => vAt t ks
    | _ => none

theorem vAt_cons_dict (es : List (Key × Tree)) (k : Key) (ks : List Key) :
    vAt (.dict es) (k :: ks) = (lookup es k).bind fun t => vAt t ks := rfl

theorem vAt_iff (t : Tree) (path : List Key) (u : Tree) (h : Wf t) :
    vAt t path = some u ↔ At t path u := by
  induction path generalizing t with
  | nil =>
    simp only [vAt, Option.some.injEq]
    constructor
    · rintro rfl; exact .here t
    · intro h; cases h; rfl
  | cons k ks ih =>
    cases t with
    | leaf v => simp only [vAt, reduceCtorEq, false_iff]; intro h; cases h
    | seq xs => simp only [vAt, reduceCtorEq, false_iff]; intro h; cases h
    | dict es =>
      rw [vAt_cons_dict, Option.bind_eq_some_iff]
      constructor
      · rintro ⟨t, h1, h2⟩
        exact .step es k t ks u (lookup_mem es k t h1) ((ih t (wf_lookup es k t h h1)).mp h2)
      · intro h'
        cases h' with
        | step _ _ t _ _ h1 h2 =>
          cases h with
          | dict _ hd hw =>
            exact ⟨t, lookup_of_mem es k t hd h1, (ih t (hw _ h1)).mpr h2⟩

theorem getIn_of_vAt (es : List (Key × Tree)) (k : Key) (ks : List Key) (u : Tree)
    (h : vAt (.dict es) (k :: ks) = some u) : getIn es k ks = u := by
  induction ks generalizing es k with
  | nil =>
    rw [vAt_cons_dict] at h
    cases hl : lookup es k with
    | none => simp [hl] at h
    | some t => simpa [hl, vAt, getIn] using h
  | cons k' ks' ih =>
    rw [vAt_cons_dict] at h
    cases hl : lookup es k with
    | none => simp [hl] at h
    | some t =>
      rw [hl] at h
      simp only [Option.bind_some] at h
      cases t with
      | leaf v => simp [vAt] at h
      | seq xs => simp [vAt] at h
      | dict sub => simp only [getIn, hl]; exact ih sub k' h

theorem getIn_missing (es : List (Key × Tree)) (k : Key) (ks : List Key)
    (h : vAt (.dict es) (k :: ks) = none)
    (hp : ∀ (p : List Key) (t : Tree), p <+: k :: ks → vAt (.dict es) p = some t →
      ∃ es', t = .dict es') : getIn es k ks = .dict [] := by
  induction ks generalizing es k with
  | nil =>
    rw [vAt_cons_dict] at h
    cases hl : lookup es k with
    | none => simp [getIn, hl]
    | some t => simp [hl, vAt] at h
  | cons k' ks' ih =>
    rw [vAt_cons_dict] at h
    cases hl : lookup es k with
    | none => simp [getIn, hl]
    | some t =>
      rw [hl] at h
      simp only [Option.bind_some] at h
      obtain ⟨sub, rfl⟩ := hp [k] t (by simp) (by simp [hl, vAt])
      simp only [getIn, hl]
      refine ih sub k' h fun p t hpre hv => ?_
      refine hp (k :: p) t (List.cons_prefix_cons.mpr ⟨rfl, hpre⟩) ?_
      rw [vAt_cons_dict, hl]
      exact hv

theorem getIn_through (es : List (Key × Tree)) (k : Key) (ks more : List Key) (t : Tree)
    (h : vAt (.dict es) (k :: ks) = some t) (hn : ∀ es', t ≠ .dict es') :
    getIn es k (ks ++ more) = t := by
  induction ks generalizing es k with
  | nil =>
    rw [vAt_cons_dict] at h
    cases hl : lookup es k with
    | none => simp [hl] at h
    | some u =>
      simp only [hl, Option.bind_some, vAt, Option.some.injEq] at h
      subst h
      cases more with
      | nil => simp [getIn, hl]
      | cons k' more =>
        cases u with
        | dict es' => exact absurd rfl (hn es')
        | leaf v => simp [getIn, hl]
        | seq xs => simp [getIn, hl]
  | cons k' ks' ih =>
    rw [vAt_cons_dict] at h
    cases hl : lookup es k with
    | none => simp [hl] at h
    | some u =>
      rw [hl] at h
      simp only [Option.bind_some] at h
      cases u with
      | leaf v => simp [vAt] at h
      | seq xs => simp [vAt] at h
      | dict sub => simp only [List.cons_append, getIn, hl]; exact ih sub k' h

/-- C50: looking up a path of names returns the value stored at exactly that path. -/
theorem C50_found (attrs : List (Key × Tree)) (first : Str) (names : List Key) (u : Tree)
    (hw : Wf (.dict attrs)) (h : At (.dict attrs) (.name first :: names) u) :
    get attrs (.name first) names = .ok u := by
  simp only [get, Except.ok.injEq]
  exact getIn_of_vAt attrs _ names u ((vAt_iff _ _ _ hw).mpr h)

/-- C50 (partial: only if no value other than a dict is stored on the way): if nothing is stored at the
path, the result is an empty dict. -/
theorem C50_missing_partial (attrs : List (Key × Tree)) (first : Str) (names : List Key)
    (hw : Wf (.dict attrs)) (h : ∀ u, ¬ At (.dict attrs) (.name first :: names) u)
    (hp : ∀ (p : List Key) (t : Tree), p <+: .name first :: names → At (.dict attrs) p t →
      ∃ es', t = .dict es') :
    get attrs (.name first) names = .ok (.dict []) := by
  simp only [get, Except.ok.injEq]
  refine getIn_missing attrs _ names ?_ fun p t hpre hv =>
    hp p t hpre ((vAt_iff _ _ _ hw).mp hv)
  rw [Option.eq_none_iff_forall_ne_some]
  intro u hu
  exact h u ((vAt_iff _ _ _ hw).mp hu)

/-- The rest of the full statement is false: if a value other than a dict is stored on the way, that value
is returned, whatever names follow. -/
theorem C50_stops_at_value (attrs : List (Key × Tree)) (first : Str) (names more : List Key)
    (t : Tree) (hw : Wf (.dict attrs)) (h : At (.dict attrs) (.name first :: names) t)
    (hn : ∀ es', t ≠ .dict es') : get attrs (.name first) (names ++ more) = .ok t := by
  simp only [get, Except.ok.injEq]
  exact getIn_through attrs _ names more t ((vAt_iff _ _ _ hw).mpr h) hn

/-! ### Reading keeps dicts well-formed -/

theorem wf_parseValues (tokens : List Str) : Wf (parseValues tokens) := by
  unfold parseValues
  simp only
  split
  · exact .leaf _
  · refine .seq _ fun x hx => ?_
    obtain ⟨v, -, rfl⟩ := List.mem_map.mp hx
    exact .leaf v

/-- The attributes, and the dict being defined, are well-formed. -/
def WfSt (st : St) : Prop := Wf (.dict st.attrs) ∧ ∀ p, st.building = some p → Wf (.dict p.2)

theorem wf_addAttr (st st' : St) (k : Key) (t : Tree) (h : WfSt st) (ht : Wf t)
    (hs : addAttr st k t = .ok st') : WfSt st' := by
  cases k with
  | int n => simp [addAttr] at hs
  | name s =>
    simp only [addAttr, Except.ok.injEq] at hs
    rw [← hs]
    exact ⟨wf_put _ _ _ h.1 ht, h.2⟩

theorem wf_store (st st' : St) (parts : List Key) (v : Tree) (h : WfSt st) (hv : Wf v)
    (hs : store st parts v = .ok st') : WfSt st' := by
  unfold store at hs
  split at hs
  case h_1 name es k ks hb =>
    cases hsub : stack es k ks v with
    | error e => rw [hsub] at hs; simp [bind, Except.bind] at hs
    | ok es' =>
      rw [hsub] at hs
      simp only [bind, Except.bind, pure, Except.pure, Except.ok.injEq] at hs
      rw [← hs]
      refine ⟨h.1, fun p hp => ?_⟩
      simp only [Option.some.injEq] at hp
      rw [← hp]
      exact wf_stack es k ks _ es' (h.2 _ hb) hv hsub
  case h_2 => exact wf_addAttr _ _ _ _ h hv hs
  case h_3 =>
    simp only [Except.ok.injEq] at hs
    rw [← hs]
    exact h

theorem wf_assign (st st' : St) (parts : List Key) (tokens : List Str) (h : WfSt st)
    (hs : assign st parts tokens = .ok st') : WfSt st' := by
  unfold assign at hs
  split at hs
  · simp at hs
  · exact wf_store _ _ _ _ h (wf_parseValues _) hs

theorem wf_hyphens (st st' : St) (h : WfSt st) (hs : hyphens st = .ok st') : WfSt st' := by
  unfold hyphens at hs
  split at hs
  case h_1 name es hb =>
    cases ha : addAttr st name (.dict es) with
    | error e => rw [ha] at hs; simp [bind, Except.bind] at hs
    | ok st1 =>
      rw [ha] at hs
      simp only [bind, Except.bind, pure, Except.pure, Except.ok.injEq] at hs
      have := wf_addAttr _ _ _ _ h (h.2 _ hb) ha
      rw [← hs]
      exact ⟨this.1, by simp⟩
  case h_2 hb =>
    split at hs
    · simp at hs
    · split_ifs at hs
      simp only [Except.ok.injEq] at hs
      rw [← hs]
      refine ⟨h.1, fun p hp => ?_⟩
      simp only [Option.some.injEq] at hp
      rw [← hp]
      exact wf_nil

theorem wf_entry (st st' : St) (first : Str) (tokens : List Str) (h : WfSt st)
    (hs : entry st first tokens = .ok st') : WfSt st' := by
  unfold entry at hs
  simp only at hs
  split at hs
  · exact wf_assign _ _ _ _ h hs
  · split_ifs at hs
    · simp only [Except.ok.injEq] at hs
      rw [← hs]
      exact h
    · exact wf_assign _ _ _ _ h hs

theorem wf_readLine (st st' : St) (line : Str) (h : WfSt st) (hs : readLine st line = .ok st') :
    WfSt st' := by
  unfold readLine at hs
  simp only at hs
  split at hs
  · simp only [Except.ok.injEq] at hs; rw [← hs]; exact h
  · simp only [Except.ok.injEq] at hs; rw [← hs]; exact h
  · exact wf_hyphens _ _ h hs
  · split at hs
    · simp only [Except.ok.injEq] at hs; rw [← hs]; exact h
    · exact wf_entry _ _ _ _ h hs

theorem wf_foldlM (st st' : St) (lines : List Str) (h : WfSt st)
    (hs : lines.foldlM readLine st = .ok st') : WfSt st' := by
  induction lines generalizing st with
  | nil =>
    simp only [List.foldlM_nil, pure, Except.pure, Except.ok.injEq] at hs
    rw [← hs]; exact h
  | cons l ls ih =>
    rw [List.foldlM_cons] at hs
    cases h1 : readLine st l with
    | error e => rw [h1] at hs; simp [bind, Except.bind] at hs
    | ok st1 =>
      rw [h1] at hs
      exact ih st1 (wf_readLine _ _ _ h h1) hs

/-- Whatever is read, all dicts have distinct keys: the hypothesis of the theorems above holds for loaded
specs. -/
theorem C50_loaded_wf (lines : List Str) (st : St) (h : read lines = .ok st) :
    Wf (.dict st.attrs) := by
  unfold read at h
  split_ifs at h
  exact (wf_foldlM _ _ _ ⟨wf_nil, by simp⟩ h).1

/-- C50 for loaded specs. -/
theorem C50_found_loaded (lines : List Str) (st : St) (h : read lines = .ok st) (first : Str)
    (names : List Key) (u : Tree) (hu : At (.dict st.attrs) (.name first :: names) u) :
    get st.attrs (.name first) names = .ok u :=
  C50_found _ _ _ _ (C50_loaded_wf lines st h) hu

/-- The single value a result consists of, if it is one. -/
def single? : Except Err Tree → Option Scalar
  | .ok (.leaf v) => some v
  | _ => none

example : (read ["params\n".toList, "-----\n".toList, "351:Rg  990\n".toList, "-----\n".toList]).toOption.bind
    (fun st => single? (get st.attrs (.name "params".toList) [.int 351, .name "Rg".toList])) =
    some (.num 990) := by decide +kernel

/-- A path through a number gives the number instead of an empty dict. -/
theorem C50_witness :
    (read ["x 5".toList]).toOption.bind
      (fun st => single? (get st.attrs (.name "x".toList) [.name "y".toList])) = some (.num 5) := by
  decide +kernel

/-- Two levels of names. -/
def nested : List (Key × Tree) :=
  [(.name "a".toList, .dict [(.int 3, .leaf (.num 7)), (.name "b".toList, .leaf .none)]), (.name "c".toList, .leaf (.num 1))]

theorem nested_wf : Wf (.dict nested) := by
  refine .dict _ (by decide) fun p hp => ?_
  simp only [nested, List.mem_cons, List.not_mem_nil, or_false] at hp
  rcases hp with rfl | rfl
  · refine .dict _ (by decide) fun q hq => ?_
    simp only [List.mem_cons, List.not_mem_nil, or_false] at hq
    rcases hq with rfl | rfl <;> exact .leaf _
  · exact .leaf _

theorem nested_at : At (.dict nested) [.name "a".toList, .int 3] (.leaf (.num 7)) :=
  .step nested (.name "a".toList) _ _ _ (List.mem_cons_self ..) (.step _ (.int 3) _ _ _ (List.mem_cons_self ..) (.here _))

example := C50_found nested "a".toList [.int 3] (.leaf (.num 7)) nested_wf
  nested_at

example := C50_stops_at_value nested "a".toList [.int 3] [.name "x".toList] (.leaf (.num 7)) nested_wf
  nested_at (fun _ h => by cases h)

example := C50_missing_partial nested "x".toList [.int 3] nested_wf
  (fun u h => by cases h with | step _ _ _ _ _ hm _ => simp [nested] at hm)
  (fun p t hp h => by
    cases h with
    | here => exact ⟨_, rfl⟩
    | step _ k _ _ _ hm _ =>
      obtain rfl : k = .name "x".toList := (List.cons_prefix_cons.1 hp).1
      simp [nested] at hm)

/-- A file. -/
def nestedLines : List Str :=
  ["params\n".toList, "-----\n".toList, "351:Rg  990\n".toList, "-----\n".toList]

theorem nestedLines_ok : ∃ st, read nestedLines = .ok st := by
  have h : (read nestedLines).isOk = true := by decide +kernel
  cases hr : read nestedLines with
  | ok st => exact ⟨st, rfl⟩
  | error e => rw [hr] at h; cases h

example := nestedLines_ok.imp fun st h => C50_loaded_wf nestedLines st h

end Specs
end Ade
