import Verif.Model.Arrays
import Mathlib.Data.List.Nodup

/-!
# C107: every individual has its own values

Specification: individuals with values of their own (`Own`), where whatever is done to one individual's
values leaves all others as they are.
-/

set_option autoImplicit false

namespace Ade
namespace Arrays

/-! ## Specification -/

/-- Individuals each with values of their own, the population, and the values recorded in the history. -/
structure Own where
  vals : List (List ℚ)
  members : List ℕ
  record : List (List ℚ)

/-- The individual at an index of the population. -/
def Own.at (o : Own) (k : ℕ) : Option Individual :=
  o.members[k]?.bind fun i => o.vals[i]?.map fun v => ⟨none, v⟩

/-- What an operation is meant to do: each concerns one individual only. -/
def Own.step (c : Challenge.Config) (o : Own) : Op → Own
  | .initial row => { o with vals := o.vals ++ [ParamManager.limit c.bounds row] }
  | .challenge kt kb k0 k1 d =>
    match o.at kt, o.at kb, o.at k0, o.at k1 with
    | some t, some b, some i0, some i1 => { o with vals := o.vals ++ [Challenge.challenger c d t b i0 i1] }
    | _, _, _, _ => o
  | .copy i =>
    match o.vals[i]? with
    | some v => { o with vals := o.vals ++ [v] }
    | none => o
  | .set i vs => if vs.length = c.bounds.length then { o with vals := o.vals.set i vs } else o
  | .write i w => { o with vals := o.vals.modify i w }
  | .join i =>
    match o.vals[i]? with
    | some v => { o with record := o.record ++ [v], members := o.members ++ [i] }
    | none => o
  | .replace k i =>
    match o.vals[i]? with
    | some v => { o with record := o.record ++ [v], members := o.members.set k i }
    | none => o
  | .note i =>
    match o.vals[i]? with
    | some v => { o with record := o.record ++ [v] }
    | none => o

/-- What is seen of the arrays: the values of each individual, the population and the history. -/
def St.view (s : St) : Own := ⟨s.inds.map (get s.heap), s.members, s.record⟩

/-- No two individuals have the same array. -/
def St.Separate (s : St) : Prop := s.inds.Nodup ∧ ∀ r ∈ s.inds, r < s.heap.length

/-! ## Single operations on arrays -/

theorem get_append {h : Heap} {l : Heap} {r : ℕ} (hr : r < h.length) : get (h ++ l) r = get h r := by
  simp [get, List.getD_eq_getElem?_getD, List.getElem?_append_left hr]

theorem get_new (h : Heap) (vs : List ℚ) : get (h ++ [vs]) h.length = vs := by
  simp [get, List.getD_eq_getElem?_getD]

theorem get_out {h : Heap} {r : ℕ} (hr : h.length ≤ r) : get h r = [] := by
  simp [get, List.getD_eq_getElem?_getD, List.getElem?_eq_none hr]

theorem get_write_ne {h : Heap} {r r' : ℕ} (w : List ℚ → List ℚ) (hne : r' ≠ r) :
    get (write h r' w) r = get h r := by
  simp [get, write, List.getD_eq_getElem?_getD, hne]

theorem get_write_eq {h : Heap} {r : ℕ} (w : List ℚ → List ℚ) (hr : r < h.length) :
    get (write h r w) r = w (get h r) := by
  simp [get, write, List.getD_eq_getElem?_getD, hr]

theorem length_write (h : Heap) (r : ℕ) (w : List ℚ → List ℚ) : (write h r w).length = h.length := by
  simp [write]

/-- Crossover changes the mutant's array only, and to what the crossover of values gives. -/
theorem crossover_spec (CR : ℚ) (d : Challenge.Draws) (parent mutant : ℕ) (hne : mutant ≠ parent) :
    ∀ (ks : List ℕ) (h : Heap), mutant < h.length →
      let h' := ks.foldl (fun h k =>
        if k = d.j then h
        else if CR < d.u k then setItem h mutant k ((get h parent).getD k default)
        else h) h
      h'.length = h.length ∧ (∀ r, r ≠ mutant → get h' r = get h r) ∧
      get h' mutant = ks.foldl (fun m k =>
        if k = d.j then m
        else if CR < d.u k then m.set k ((get h parent).getD k default)
        else m) (get h mutant) := by
  intro ks
  induction ks with
  | nil => intro h _; exact ⟨rfl, fun _ _ => rfl, rfl⟩
  | cons k ks ih =>
    intro h hm
    simp only [List.foldl_cons]
    by_cases hk : k = d.j
    · simp only [if_pos hk]
      exact ih h hm
    · simp only [if_neg hk]
      by_cases hc : CR < d.u k
      · simp only [if_pos hc]
        have hm' : mutant < (setItem h mutant k ((get h parent).getD k default)).length := by
          rw [setItem, length_write]; exact hm
        obtain ⟨h1, h2, h3⟩ := ih _ hm'
        have hp : get (setItem h mutant k ((get h parent).getD k default)) parent = get h parent :=
          get_write_ne _ hne
        refine ⟨?_, ?_, ?_⟩
        · rw [h1, setItem, length_write]
        · intro r hr
          rw [h2 r hr, setItem, get_write_ne _ (Ne.symm hr)]
        · rw [h3, hp, setItem, get_write_eq _ hm]
      · simp only [if_neg hc]
        exact ih h hm

theorem limit_spec (bs : List Bound) (h : Heap) (r : ℕ) :
    (∃ l, (limit bs h r).1 = h ++ l) ∧ h.length ≤ (limit bs h r).2 ∧
    (limit bs h r).2 < (limit bs h r).1.length ∧
    get (limit bs h r).1 (limit bs h r).2 = ParamManager.limit bs (get h r) := by
  refine ⟨?_, ?_, ?_, ?_⟩
  · simp only [limit, alloc]
    exact ⟨_, by rw [List.append_assoc, List.append_assoc]⟩
  · simp [limit, alloc]
  · simp [limit, alloc]
  · simp only [limit, alloc]
    have e : ∀ (H : Heap) (vs : List ℚ) (n : ℕ), n = H.length → get (H ++ [vs]) n = vs := by
      intro H vs n hn; subst hn; exact get_new H vs
    rw [e _ _ _ rfl, e _ _ _ rfl, e _ _ _ rfl]
    generalize get h r = vs
    unfold ParamManager.limit
    induction bs generalizing vs with
    | nil => simp
    | cons b bs ih =>
      cases vs with
      | nil => simp
      | cons v vs =>
        simp only [List.zipWith_cons_cons]
        rw [ih vs]
        rfl

/-- Making a challenger leaves every array there was as it was, gives the challenger an array of its own, and
its values are those of `Challenge.challenger`. -/
theorem challenger_spec (c : Challenge.Config) (d : Challenge.Draws) (h : Heap) (t b i0 i1 : ℕ)
    (ht : t < h.length) (hb : b < h.length) :
    h.length ≤ (challenger c d h t b i0 i1).2 ∧
    (challenger c d h t b i0 i1).2 < (challenger c d h t b i0 i1).1.length ∧
    (∀ r, r < h.length → get (challenger c d h t b i0 i1).1 r = get h r) ∧
    get (challenger c d h t b i0 i1).1 (challenger c d h t b i0 i1).2 =
      Challenge.challenger c d ⟨none, get h t⟩ ⟨none, get h b⟩ ⟨none, get h i0⟩ ⟨none, get h i1⟩ := by
  set p := sub h i0 i1 with hp
  set q := scale p.1 p.2 d.F with hq
  set m := add q.1 b q.2 with hm
  have p1 : p.1 = h ++ [List.zipWith (· - ·) (get h i0) (get h i1)] := rfl
  have p2 : p.2 = h.length := rfl
  have q1 : q.1 = p.1 ++ [(get p.1 p.2).map (· * d.F)] := rfl
  have q2 : q.2 = p.1.length := rfl
  have m1 : m.1 = q.1 ++ [List.zipWith (· + ·) (get q.1 b) (get q.1 q.2)] := rfl
  have m2 : m.2 = q.1.length := rfl
  have lp : p.1.length = h.length + 1 := by rw [p1]; simp
  have lq : q.1.length = h.length + 2 := by rw [q1]; simp [lp]
  have lm : m.1.length = h.length + 3 := by rw [m1]; simp [lq]
  have keep : ∀ r, r < h.length → get m.1 r = get h r := by
    intro r hr
    rw [m1, get_append (by omega), q1, get_append (by omega), p1, get_append hr]
  have val : get m.1 m.2 =
      (Challenge.donor ⟨none, get h b⟩ ⟨none, get h i0⟩ ⟨none, get h i1⟩ d.F).values := by
    rw [m1, m2, get_new]
    rw [show get q.1 b = get h b by rw [q1, get_append (by omega), p1, get_append hb]]
    rw [q2, q1, get_new, p2, p1, get_new]
    rfl
  have hx := crossover_spec c.CR d t m.2 (by omega) (List.range c.bounds.length) m.1 (by omega)
  dsimp only at hx
  change (crossover c.CR c.bounds.length d m.1 t m.2).length = _ ∧
    (∀ r, r ≠ m.2 → get (crossover c.CR c.bounds.length d m.1 t m.2) r = _) ∧
    get (crossover c.CR c.bounds.length d m.1 t m.2) m.2 = _ at hx
  obtain ⟨x1, x2, x3⟩ := hx
  have e : challenger c d h t b i0 i1 =
      limit c.bounds (crossover c.CR c.bounds.length d m.1 t m.2) m.2 := rfl
  obtain ⟨⟨l, l1⟩, l2, l3, l4⟩ := limit_spec c.bounds (crossover c.CR c.bounds.length d m.1 t m.2) m.2
  rw [← e] at l1 l2 l3 l4
  refine ⟨by omega, l3, ?_, ?_⟩
  · intro r hr
    rw [l1, get_append (by omega), x2 r (by omega), keep r hr]
  · rw [l4, x3, val, keep t ht]
    rfl

/-! ## All operations -/

/-- A new individual with an array of its own, the other arrays being as they were. -/
theorem new_spec (s : St) (hs : s.Separate) (q : Heap × ℕ) (v : List ℚ)
    (h1 : s.heap.length ≤ q.2) (h2 : q.2 < q.1.length)
    (h3 : ∀ r, r < s.heap.length → get q.1 r = get s.heap r) (h4 : get q.1 q.2 = v) :
    (s.new q).Separate ∧ (s.new q).view = { s.view with vals := s.view.vals ++ [v] } := by
  obtain ⟨hn, hl⟩ := hs
  refine ⟨⟨?_, ?_⟩, ?_⟩
  · simp only [St.new]
    rw [List.nodup_append]
    refine ⟨hn, by simp, ?_⟩
    intro a ha b hb
    have := hl a ha
    simp only [List.mem_singleton] at hb
    omega
  · intro r hr
    simp only [St.new, List.mem_append, List.mem_singleton] at hr ⊢
    rcases hr with hr | hr
    · have := hl r hr; omega
    · omega
  · simp only [St.new, St.view, List.map_append, List.map_cons, List.map_nil, h4]
    congr 2
    exact List.map_congr_left fun r hr => h3 r (hl r hr)

theorem view_vals (s : St) (i : ℕ) : s.view.vals[i]? = (s.ref i).map (get s.heap) := by
  simp [St.view, St.ref]

theorem view_at (s : St) (k : ℕ) :
    s.view.at k = (s.at k).map fun r => ⟨none, get s.heap r⟩ := by
  simp only [Own.at, St.at]
  cases h : s.members[k]? with
  | none => simp [St.view, h]
  | some i =>
    simp only [St.view, h, Option.bind_some, List.getElem?_map, Option.map_map, St.ref]
    rfl

theorem at_lt {s : St} (hs : s.Separate) {k r : ℕ} (h : s.at k = some r) : r < s.heap.length := by
  simp only [St.at, Option.bind_eq_some_iff, St.ref] at h
  obtain ⟨i, _, h⟩ := h
  exact hs.2 r (List.mem_of_getElem? h)

theorem ref_lt {s : St} (hs : s.Separate) {i r : ℕ} (h : s.ref i = some r) : r < s.heap.length :=
  hs.2 r (List.mem_of_getElem? h)

/-- One operation does to the arrays what is meant, and keeps them separate. -/
theorem step_spec (c : Challenge.Config) (s : St) (hs : s.Separate) (op : Op) :
    (step c s op).Separate ∧ (step c s op).view = s.view.step c op := by
  cases op with
  | initial row =>
    obtain ⟨⟨l, l1⟩, l2, l3, l4⟩ := limit_spec c.bounds (alloc s.heap row).1 (alloc s.heap row).2
    have hlen : (alloc s.heap row).1.length = s.heap.length + 1 := by simp [alloc]
    apply new_spec s hs
    · change s.heap.length ≤ (limit _ _ _).2; omega
    · exact l3
    · intro r hr
      change get (limit _ _ _).1 r = _
      rw [l1, get_append (by omega)]
      exact get_append hr
    · change get (limit _ _ _).1 (limit _ _ _).2 = _
      rw [l4]
      congr 1
      exact get_new _ _
  | challenge kt kb k0 k1 d =>
    simp only [step, Own.step, view_at, St.sample]
    cases ht : s.at kt with
    | none => exact ⟨hs, rfl⟩
    | some t =>
      cases hb : s.at kb with
      | none => exact ⟨hs, rfl⟩
      | some b =>
        cases h0 : s.at k0 with
        | none => exact ⟨hs, rfl⟩
        | some i0 =>
          cases h1 : s.at k1 with
          | none => exact ⟨hs, rfl⟩
          | some i1 =>
            obtain ⟨c1, c2, c3, c4⟩ :=
              challenger_spec c d s.heap t b i0 i1 (at_lt hs ht) (at_lt hs hb)
            exact new_spec s hs _ _ c1 c2 c3 c4
  | copy i =>
    simp only [step, Own.step, view_vals]
    cases h : s.ref i with
    | none => exact ⟨hs, rfl⟩
    | some r =>
      refine new_spec s hs (Arrays.copy s.heap r) _ (le_refl _) ?_ ?_ ?_
      · simp [Arrays.copy, alloc]
      · intro r' hr'
        exact get_append hr'
      · exact get_new _ _
  | set i vs =>
    simp only [step, update, Own.step]
    by_cases hl : vs.length = c.bounds.length
    · simp only [hl, ne_eq, not_true_eq_false, if_false, if_true]
      obtain ⟨hn, hlt⟩ := hs
      refine ⟨⟨?_, ?_⟩, ?_⟩
      · apply List.Nodup.set hn
        intro h
        have := hlt _ h
        simp [alloc] at this
      · intro r hr
        have : r < s.heap.length ∨ r = s.heap.length := by
          rcases List.mem_or_eq_of_mem_set hr with h | h
          · exact Or.inl (hlt r h)
          · exact Or.inr h
        simp only [alloc, List.length_append, List.length_singleton]
        omega
      · simp only [St.view, alloc, List.map_set, get_new]
        congr 2
        exact List.map_congr_left fun r hr => get_append (hlt r hr)
    · simp only [ne_eq, hl, not_false_eq_true, if_true, if_false]
      exact ⟨hs, trivial⟩
  | write i w =>
    simp only [step, Own.step]
    cases h : s.ref i with
    | none =>
      refine ⟨hs, ?_⟩
      have hi : s.inds.length ≤ i := by
        simpa [St.ref] using h
      have : s.view.vals.modify i w = s.view.vals := by
        apply List.modify_eq_self
        simpa [St.view] using hi
      simp only [this]
    | some r =>
      obtain ⟨hn, hlt⟩ := hs
      refine ⟨⟨hn, ?_⟩, ?_⟩
      · intro r' hr'
        simp only [length_write]
        exact hlt r' hr'
      · simp only [St.view]
        congr 1
        apply List.ext_getElem?
        intro j
        simp only [List.getElem?_map, List.getElem?_modify]
        cases hj : s.inds[j]? with
        | none => simp
        | some r' =>
          simp only [Option.map_some]
          by_cases hij : i = j
          · subst hij
            have : r' = r := by
              simp only [St.ref] at h
              rw [h] at hj
              exact (Option.some.inj hj).symm
            subst this
            rw [get_write_eq w (hlt _ (List.mem_of_getElem? hj))]
            simp
          · rw [get_write_ne]
            · simp [hij]
            · intro he
              subst he
              simp only [St.ref] at h
              obtain ⟨hi', e1⟩ := List.getElem?_eq_some_iff.mp h
              obtain ⟨hj', e2⟩ := List.getElem?_eq_some_iff.mp hj
              exact hij ((List.Nodup.getElem_inj_iff hn).mp (e1.trans e2.symm))
  | join i =>
    simp only [step, Own.step, view_vals]
    cases h : s.ref i with
    | none => exact ⟨hs, rfl⟩
    | some r => exact ⟨hs, rfl⟩
  | replace k i =>
    simp only [step, Own.step, view_vals]
    cases h : s.ref i with
    | none => exact ⟨hs, rfl⟩
    | some r => exact ⟨hs, rfl⟩
  | note i =>
    simp only [step, Own.step, view_vals]
    cases h : s.ref i with
    | none => exact ⟨hs, rfl⟩
    | some r => exact ⟨hs, rfl⟩

/-! ## Theorems -/

/-- C107: whatever is done, in any order, and whatever evaluation functions and callbacks write into the arrays
they are given, everything seen of the individuals, the population and the history is as if every
individual had values of its own. -/
theorem C107_own_values (c : Challenge.Config) (s : St) (hs : s.Separate) (ops : List Op) :
    (run c s ops).view = ops.foldl (Own.step c) s.view ∧ (run c s ops).Separate := by
  induction ops generalizing s with
  | nil => exact ⟨rfl, hs⟩
  | cons op ops ih =>
    obtain ⟨h1, h2⟩ := step_spec c s hs op
    simp only [run, List.foldl_cons] at ih ⊢
    rw [← h2]
    exact ih _ h1

/-- C107: at the start nothing is shared. -/
theorem C107_start_separate : start.Separate := ⟨List.nodup_nil, by simp [start]⟩

/-- C107: an individual is not given the array of another that has the wrong number of values. -/
theorem C107_wrong_length (c : Challenge.Config) (s : St) (i j : ℕ) (v : List ℚ) (hj : s.view.vals[j]? = some v)
    (hv : v.length ≠ c.bounds.length) : updateFrom c s i j = s := by
  rw [view_vals] at hj
  unfold updateFrom
  cases hr : s.ref j with
  | none => rfl
  | some r =>
    rw [hr] at hj
    simp only [Option.map_some, Option.some.injEq] at hj
    simp only [update, hj, hv, ne_eq, not_false_eq_true, if_true]

/-- C107: what is written into the array of one individual is not seen in any other, nor in the
population's membership, nor in the history. -/
theorem C107_write_local (c : Challenge.Config) (s : St) (hs : s.Separate) (i : ℕ) (w : List ℚ → List ℚ) :
    (∀ j, j ≠ i → (step c s (.write i w)).view.vals[j]? = s.view.vals[j]?) ∧
    (step c s (.write i w)).view.members = s.view.members ∧
    (step c s (.write i w)).view.record = s.view.record := by
  obtain ⟨_, h⟩ := step_spec c s hs (.write i w)
  rw [h]
  refine ⟨?_, rfl, rfl⟩
  intro j hj
  simp only [Own.step]
  rw [List.getElem?_modify]
  simp [Ne.symm hj]

/-- C107: making a challenger changes no individual there was: not the target, the base or the other two. -/
theorem C107_challenge_changes_none (c : Challenge.Config) (s : St) (hs : s.Separate) (kt kb k0 k1 : ℕ)
    (d : Challenge.Draws) :
    s.view.vals <+: (step c s (.challenge kt kb k0 k1 d)).view.vals ∧
    (step c s (.challenge kt kb k0 k1 d)).members = s.members := by
  obtain ⟨_, h⟩ := step_spec c s hs (.challenge kt kb k0 k1 d)
  constructor
  · rw [h]
    simp only [Own.step]
    split
    · exact List.prefix_append _ _
    · exact List.prefix_refl _
  · simp only [step]
    split <;> rfl

/-- C107: what has been recorded in the history stays as it was recorded, whatever happens to the arrays. -/
theorem C107_record_kept (c : Challenge.Config) (s : St) (ops : List Op) :
    s.record <+: (run c s ops).record := by
  induction ops generalizing s with
  | nil => exact List.prefix_refl _
  | cons op ops ih =>
    simp only [run, List.foldl_cons] at ih ⊢
    refine List.IsPrefix.trans ?_ (ih _)
    cases op <;> simp only [step] <;> (try split) <;>
      first | exact List.prefix_refl _ | exact List.prefix_append _ _

/-- C107: a copy has the same values and stays as it is when the original is written to, and the other way
round. -/
theorem C107_copy_independent (c : Challenge.Config) (s : St) (hs : s.Separate) (i : ℕ) (v : List ℚ)
    (hi : s.view.vals[i]? = some v) (w w' : List ℚ → List ℚ) :
    let s' := run c s [.copy i, .write i w, .write s.inds.length w']
    s'.view.vals[s.inds.length]? = some (w' v) ∧ s'.view.vals[i]? = some (w v) := by
  intro s'
  have hlen : s.view.vals.length = s.inds.length := by simp [St.view]
  have hlt : i < s.view.vals.length := by
    rw [List.getElem?_eq_some_iff] at hi; exact hi.1
  have h := (C107_own_values c s hs [.copy i, .write i w, .write s.inds.length w']).1
  have e : s'.view.vals =
      ((s.view.vals ++ [v]).modify i w).modify s.inds.length w' := by
    change (run c s _).view.vals = _
    rw [h]
    simp only [List.foldl_cons, List.foldl_nil, Own.step, hi]
  have hi' : ∃ hh, s.view.vals[i]'hh = v := List.getElem?_eq_some_iff.mp hi
  obtain ⟨hh, hv⟩ := hi'
  rw [e]
  constructor
  · rw [List.getElem?_modify, List.getElem?_modify, ← hlen]
    simp [show i ≠ s.view.vals.length by omega]
  · rw [List.getElem?_modify, List.getElem?_modify]
    simp [show s.inds.length ≠ i by omega, List.getElem?_append_left hlt, hi]

/-- C107, where this ends: the evaluation function is given the individual's own array.  If it writes into it,
the individual that its score is stored with has the values written, not those it was evaluated with: here
any challenger made from four members, whatever the function writes. -/
theorem C107_evaluator_can_alter (c : Challenge.Config) (s : St) (hs : s.Separate) (kt kb k0 k1 : ℕ)
    (d : Challenge.Draws) (t b i0 i1 : Individual) (ht : s.view.at kt = some t) (hb : s.view.at kb = some b)
    (h0 : s.view.at k0 = some i0) (h1 : s.view.at k1 = some i1) (w : List ℚ → List ℚ) :
    (run c s [.challenge kt kb k0 k1 d, .write s.inds.length w,
      .replace kt s.inds.length]).view.at kt = some ⟨none, w (Challenge.challenger c d t b i0 i1)⟩ := by
  have hlen : s.view.vals.length = s.inds.length := by simp [St.view]
  rw [(C107_own_values c s hs _).1]
  simp only [List.foldl_cons, List.foldl_nil, Own.step, ht, hb, h0, h1]
  have e : ((s.view.vals ++ [Challenge.challenger c d t b i0 i1]).modify s.inds.length w)[s.inds.length]? =
      some (w (Challenge.challenger c d t b i0 i1)) := by
    rw [List.getElem?_modify, ← hlen]
    simp
  have hk : kt < s.view.members.length := by
    simp only [Own.at, Option.bind_eq_some_iff] at ht
    obtain ⟨i, hi, _⟩ := ht
    exact (List.getElem?_eq_some_iff.mp hi).1
  simp only [e, Own.at]
  rw [List.getElem?_set_self hk]
  simp only [Option.bind_some, e, Option.map_some]

/-- C107, where this ends: `update` with a list of the right length gives the individual values of its own, but
with an array it keeps the array, so that `i.update(j.values)` makes two individuals share one: whatever is
written to one of them is then seen in both. -/
theorem C107_update_array_shares (c : Challenge.Config) (s : St) (hs : s.Separate) (i j : ℕ) (v : List ℚ)
    (hi : i < s.inds.length) (hij : i ≠ j) (hj : s.view.vals[j]? = some v) (hv : v.length = c.bounds.length)
    (w : List ℚ → List ℚ) :
    let s' := step c (updateFrom c s i j) (.write i w)
    s'.view.vals[i]? = some (w v) ∧ s'.view.vals[j]? = some (w v) := by
  intro s'
  rw [view_vals] at hj
  obtain ⟨r, hr, hg⟩ := Option.map_eq_some_iff.mp hj
  have hl : (get s.heap r).length = c.bounds.length := by rw [hg]; exact hv
  have hu : updateFrom c s i j = { s with inds := s.inds.set i r } := by
    simp only [updateFrom, hr, update, hl, ne_eq, not_true_eq_false, if_false]
  have hri : ({ s with inds := s.inds.set i r } : St).ref i = some r := by
    simp [St.ref, hi]
  have hrj : ({ s with inds := s.inds.set i r } : St).ref j = some r := by
    simp only [St.ref] at hr ⊢
    rw [List.getElem?_set_ne hij]
    exact hr
  have hs' : s' = ⟨write s.heap r w, s.inds.set i r, s.members, s.record⟩ := by
    change step c (updateFrom c s i j) (.write i w) = _
    rw [hu]
    simp only [step, hri]
  have hw : get (write s.heap r w) r = w v := by rw [get_write_eq w (ref_lt hs hr), hg]
  constructor
  · rw [hs', view_vals]
    simp only [St.ref] at hri ⊢
    rw [hri]
    simp [hw]
  · rw [hs', view_vals]
    simp only [St.ref] at hrj ⊢
    rw [hrj]
    simp [hw]

/-! ## Cases -/

/-- Two parameters within 0 and 10. -/
def demoConfig : Challenge.Config := ⟨[⟨0, 10⟩, ⟨0, 10⟩], ["a", "b"], [], 1, false⟩

/-- Four members made by `setup`. -/
def demoFour : St := run demoConfig start
  [.initial [1, 2], .initial [3, 4], .initial [5, 6], .initial [8, 7], .join 0, .join 1, .join 2, .join 3]

example : demoFour.inds.Nodup ∧ demoFour.inds.length = 4 ∧ demoFour.members = [0, 1, 2, 3] ∧
    demoFour.view.vals = [[1, 2], [3, 4], [5, 6], [8, 7]] := by decide +kernel

example : demoFour.Separate := (C107_own_values demoConfig start C107_start_separate _).2

/-- A challenge, with the evaluation function writing 100 into its argument: the others are as they were, the
new member is out of its bounds. -/
example : (run demoConfig demoFour [.challenge 0 1 3 2 ⟨1, 0, fun _ => 0⟩, .write 4 (·.set 0 100),
      .replace 0 4]).view.vals = [[1, 2], [3, 4], [5, 6], [8, 7], [100, 5]] ∧
    (run demoConfig demoFour [.challenge 0 1 3 2 ⟨1, 0, fun _ => 0⟩, .write 4 (·.set 0 100),
      .replace 0 4]).members = [4, 1, 2, 3] := by decide +kernel

example : demoFour.view.at 0 = some ⟨none, [1, 2]⟩ ∧ demoFour.view.at 1 = some ⟨none, [3, 4]⟩ := by
  decide +kernel

example : demoFour.view.vals[2]? = some [5, 6] ∧ ([5, 6] : List ℚ).length = demoConfig.bounds.length := by
  decide +kernel

/-- After `i0.update(i2.values)` and `i0[0] = 9`, individual 2 has changed. -/
example : (step demoConfig (updateFrom demoConfig demoFour 0 2) (.write 0 (·.set 0 9))).view.vals =
    [[9, 6], [3, 4], [9, 6], [8, 7]] := by decide +kernel

/-- After `i0.update(list(i2.values))` and `i0[0] = 9` it has not. -/
example : (run demoConfig demoFour [.set 0 [5, 6], .write 0 (·.set 0 9)]).view.vals =
    [[9, 6], [3, 4], [5, 6], [8, 7]] := by decide +kernel

theorem demoFour_separate : demoFour.Separate := (C107_own_values demoConfig start C107_start_separate _).2

example := C107_own_values demoConfig demoFour demoFour_separate
  [.copy 1, .write 1 (·.set 0 9), .replace 0 4, .note 2]

/-- Individual 2 has three values. -/
example := C107_wrong_length demoConfig (step demoConfig demoFour (.write 2 (· ++ [1]))) 0 2 [5, 6, 1] (by decide +kernel)
  (by decide)

example := C107_write_local demoConfig demoFour demoFour_separate 2 (·.set 0 9)

example := C107_challenge_changes_none demoConfig demoFour demoFour_separate 0 1 3 2 ⟨1, 0, fun _ => 0⟩

example := C107_copy_independent demoConfig demoFour demoFour_separate 1 [3, 4] (by decide +kernel)
  (·.set 0 9) (·.set 1 8)

example := C107_evaluator_can_alter demoConfig demoFour demoFour_separate 0 1 3 2 ⟨1, 0, fun _ => 0⟩
  ⟨none, [1, 2]⟩ ⟨none, [3, 4]⟩ ⟨none, [8, 7]⟩ ⟨none, [5, 6]⟩ (by decide +kernel) (by decide +kernel)
  (by decide +kernel) (by decide +kernel) (·.set 0 100)

example := C107_update_array_shares demoConfig demoFour demoFour_separate 0 2 [5, 6] (by decide +kernel)
  (by decide) (by decide +kernel) (by decide) (·.set 0 9)

end Arrays
end Ade
