import Verif.Props.SpecsDoc

/-!
# C52: which lines of a specs file are refused, and how
-/

set_option autoImplicit false

namespace Ade
namespace Specs

/-- An entry below a value that is not a dict. -/
theorem stack_below (es : List (Key × Tree)) (k : Key) (q r : List Key) (v t : Tree) (hr : r ≠ [])
    (h : vAt (.dict es) (k :: q) = some t) (hn : ∀ es', t ≠ .dict es') :
    (∀ a b s, r = a :: b :: s → stack es k (q ++ r) v = .error .attributeError) ∧
      (∀ x, t = .leaf x → ∀ a, r = [a] → stack es k (q ++ r) v = .error .typeError) ∧
      (∀ xs, t = .seq xs → ∀ n, r = [.name n] → stack es k (q ++ r) v = .error .typeError) ∧
      (∀ xs i, t = .seq xs → r = [.int i] → xs.length ≤ i → stack es k (q ++ r) v = .error .indexError) ∧
      (∀ xs i, t = .seq xs → r = [.int i] → i < xs.length →
        ∃ es', stack es k (q ++ r) v = .ok es' ∧ vAt (.dict es') (k :: q) = some (.seq (xs.set i v))) := by
  induction q generalizing es k with
  | nil =>
    have hl : lookup es k = some t := by
      rw [vAt_cons_dict] at h
      cases hl : lookup es k with
      | none => simp [hl] at h
      | some u => simpa [hl, vAt] using h
    refine ⟨?_, ?_, ?_, ?_, ?_⟩
    · rintro a b s rfl
      cases t with
      | dict es' => exact absurd rfl (hn es')
      | leaf x => simp [stack, hl]
      | seq xs => simp [stack, hl]
    · rintro x rfl a rfl
      simp [stack, hl]
    · rintro xs rfl n rfl
      simp [stack, hl]
    · rintro xs i rfl rfl hi
      simp [stack, hl, not_lt.2 hi]
    · rintro xs i rfl rfl hi
      refine ⟨put es k (.seq (xs.set i v)), by simp [stack, hl, hi], ?_⟩
      rw [vAt_cons_dict, lookup_put, if_pos rfl]
      rfl
  | cons k' q ih =>
    have hl : ∃ sub, lookup es k = some (.dict sub) ∧ vAt (.dict sub) (k' :: q) = some t := by
      rw [vAt_cons_dict] at h
      cases hl : lookup es k with
      | none => simp [hl] at h
      | some u =>
        rw [hl, Option.bind_some] at h
        cases u with
        | leaf x => simp [vAt] at h
        | seq xs => simp [vAt] at h
        | dict sub => exact ⟨sub, rfl, h⟩
    obtain ⟨sub, hl, hv⟩ := hl
    obtain ⟨h1, h2, h3, h4, h5⟩ := ih sub k' hv
    have hs : stack es k (k' :: q ++ r) v = (stack sub k' (q ++ r) v).map fun s => put es k (.dict s) := by
      rw [List.cons_append, stack.eq_def]
      simp only [hl]
      cases stack sub k' (q ++ r) v <;> rfl
    refine ⟨?_, ?_, ?_, ?_, ?_⟩
    · intro a b s hr
      rw [hs, h1 a b s hr]
      rfl
    · intro x ht a hr
      rw [hs, h2 x ht a hr]
      rfl
    · intro xs ht n hr
      rw [hs, h3 xs ht n hr]
      rfl
    · intro xs i ht hr hi
      rw [hs, h4 xs i ht hr hi]
      rfl
    · intro xs i ht hr hi
      obtain ⟨es', e1, e2⟩ := h5 xs i ht hr hi
      refine ⟨put es k (.dict es'), by rw [hs, e1]; rfl, ?_⟩
      rw [vAt_cons_dict, lookup_put, if_pos rfl]
      exact e2

theorem readLine_stack (st : St) (name : Key) (es : List (Key × Tree)) (k : Key) (ks : List Key) (vs : List Scalar) (line : Str)
    (hb : st.building = some (name, es)) (hl : IsEntry (k :: ks) vs line) :
    readLine st line = (stack es k ks (meaning vs)).map fun es' => { st with building := some (name, es') } := by
  rw [readLine_entry st _ vs line hl (.inl (by simp [hb]))]
  unfold store
  simp only [hb]
  cases stack es k ks (meaning vs) <;> rfl

theorem wf_meaning (vs : List Scalar) : Wf (meaning vs) := by
  cases hm : meaning vs with
  | leaf x => exact .leaf x
  | dict es => exact absurd hm (meaning_not_dict vs es)
  | seq xs =>
    refine .seq xs fun x hx => ?_
    unfold meaning at hm
    split at hm
    · cases hm
    · injection hm with hm
      rw [← hm] at hx
      obtain ⟨v, _, rfl⟩ := List.mem_map.1 hx
      exact .leaf v

/-- C52: within the definition of a dict, an entry is stored if everything stored on the way to it is a dict. -/
theorem C52_entry (st : St) (name : Key) (es : List (Key × Tree)) (path : List Key) (vs : List Scalar) (line : Str)
    (hb : st.building = some (name, es)) (hw : Wf (.dict es)) (hl : IsEntry path vs line)
    (hp : ∀ q t, q <+: path → q ≠ path → At (.dict es) q t → ∃ sub, t = .dict sub) :
    ∃ es', readLine st line = .ok { st with building := some (name, es') } ∧ At (.dict es') path (meaning vs) := by
  cases path with
  | nil =>
    obtain ⟨w, ws, _, h2, _⟩ := hl
    exact absurd rfl (pathText_ne_nil _ _ h2)
  | cons k ks =>
    obtain ⟨es', h1, h2, -, -⟩ := stack_spec es k ks (meaning vs) (by
      intro q hq _ hne
      cases hv : vAt (.dict es) q with
      | none => exact .inl rfl
      | some t =>
        obtain ⟨sub, rfl⟩ := hp q t hq hne ((vAt_iff _ _ _ hw).1 hv)
        exact .inr ⟨sub, rfl⟩)
    refine ⟨es', by rw [readLine_stack st name es k ks vs line hb hl, h1]; rfl, ?_⟩
    have hw' : Wf (.dict es') := wf_stack es k ks (meaning vs) es' hw (wf_meaning vs) h1
    rw [← vAt_iff _ _ _ hw']
    have := h2 []
    rwa [List.append_nil] at this

/-- C52: an entry just below a list replaces an item of the list if it is named by the number of one; otherwise the reader
raises, and not a `ValueError`. -/
theorem C52_list_item (st : St) (name : Key) (es : List (Key × Tree)) (path : List Key) (last : Key) (vs : List Scalar)
    (line : Str) (xs : List Tree) (hb : st.building = some (name, es)) (hw : Wf (.dict es))
    (hl : IsEntry (path ++ [last]) vs line) (hp : At (.dict es) path (.seq xs)) :
    (∀ i, last = .int i → i < xs.length → ∃ es', readLine st line = .ok { st with building := some (name, es') } ∧
        At (.dict es') path (.seq (xs.set i (meaning vs)))) ∧
      (∀ i, last = .int i → xs.length ≤ i → readLine st line = .error .indexError) ∧
      (∀ n, last = .name n → readLine st line = .error .typeError) := by
  cases path with
  | nil => cases hp
  | cons k q =>
    rw [List.cons_append] at hl
    rw [readLine_stack st name es k _ vs line hb hl]
    obtain ⟨-, -, h3, h4, h5⟩ := stack_below es k q [last] (meaning vs) _ (by simp) ((vAt_iff _ _ _ hw).2 hp)
      (fun _ h => by cases h)
    refine ⟨?_, ?_, ?_⟩
    · rintro i rfl hi
      obtain ⟨es', e1, e2⟩ := h5 xs i rfl rfl hi
      refine ⟨es', by rw [e1]; rfl, ?_⟩
      rwa [vAt_iff _ _ _ (wf_stack es k _ (meaning vs) es' hw (wf_meaning vs) e1)] at e2
    · rintro i rfl hi
      rw [h4 xs i rfl rfl hi]
      rfl
    · rintro n rfl
      rw [h3 xs rfl n rfl]
      rfl

/-- C52: an entry below a single value, or more than one level below a list, makes the reader raise, and not a
`ValueError`. -/
theorem C52_below_value (st : St) (name : Key) (es : List (Key × Tree)) (path more : List Key) (vs : List Scalar)
    (line : Str) (t : Tree) (hb : st.building = some (name, es)) (hw : Wf (.dict es))
    (hl : IsEntry (path ++ more) vs line) (hp : At (.dict es) path t) (hn : ∀ es', t ≠ .dict es') :
    (2 ≤ more.length → readLine st line = .error .attributeError) ∧
      (more.length = 1 → (∃ x, t = .leaf x) → readLine st line = .error .typeError) := by
  cases path with
  | nil => cases hp; exact absurd rfl (hn es)
  | cons k q =>
    rw [List.cons_append] at hl
    rw [readLine_stack st name es k _ vs line hb hl]
    have hs := fun hr => stack_below es k q more (meaning vs) t hr ((vAt_iff _ _ _ hw).2 hp) hn
    match more with
    | [] => simp
    | [a] =>
      refine ⟨by simp, fun _ ⟨x, hx⟩ => ?_⟩
      rw [(hs (by simp)).2.1 x hx a rfl]
      rfl
    | a :: b :: s =>
      refine ⟨fun _ => ?_, by simp⟩
      rw [(hs (by simp)).1 a b s rfl]
      rfl

/-- C52: hyphens without a name before them are reported. -/
theorem C52_no_name (skips : List Str) (rule : Str) (ls : List Str) (hs : ∀ s ∈ skips, IsSkip s) (hr : IsRule rule) :
    read (skips ++ rule :: ls) = .error .valueError := by
  unfold read
  rw [if_neg (by simp), List.foldlM_append, fold_skips _ skips hs]
  show List.foldlM readLine _ (rule :: ls) = _
  rw [List.foldlM_cons, readLine_rule _ rule hr]
  rfl

/-- C52: a dict may not be named by a number; but only with the number zero is this reported, and at the first hyphens; with
any other number the reader raises a `TypeError` at the second hyphens. -/
theorem C52_integer_name (n : ℕ) (name r1 r2 : Str) (body ls : List Str) (es : List (List Key × Tree)) (hn : IsName (.int n) name)
    (h1 : IsRule r1) (hb : Body body es) (hg : ∀ p ∈ es, ∀ q ∈ es, p.1 <+: q.1 → p.1 = q.1) (h2 : IsRule r2) :
    read (name :: r1 :: (body ++ r2 :: ls)) = .error (if n = 0 then .valueError else .typeError) := by
  unfold read
  rw [if_neg (by simp), List.foldlM_cons, readLine_name _ _ _ hn rfl]
  show List.foldlM readLine _ (r1 :: (body ++ r2 :: ls)) = _
  rw [List.foldlM_cons, readLine_rule _ r1 h1]
  by_cases h0 : n = 0
  · subst h0
    rfl
  · rw [if_neg h0]
    have e : hyphens ⟨[], none, some (.int n)⟩ = .ok ⟨[], some (.int n, []), some (.int n)⟩ := by
      simp [hyphens, Key.truthy, h0]
    rw [e]
    show List.foldlM readLine _ (body ++ r2 :: ls) = _
    obtain ⟨cur, hc, -⟩ := stackAll_holds [] es [] holds_nil (body_good body es hb hg)
    rw [List.foldlM_append, fold_body _ (.int n) [] cur body es hb rfl hc]
    show List.foldlM readLine _ (r2 :: ls) = _
    rw [List.foldlM_cons, readLine_rule _ r2 h2]
    rfl

namespace ErrorDemo

/-- A dict with a list and a number. -/
def es : List (Key × Tree) := [(.name "k".toList, .seq [.leaf (.num 1), .leaf (.num 2)]), (.name "x".toList, .leaf (.num 3))]
/-- Such a dict being defined. -/
def st : St := ⟨[], some (.name "p".toList, es), some (.name "p".toList)⟩

theorem wf : Wf (.dict es) := by
  refine .dict _ (by decide) fun p hp => ?_
  simp only [es, List.mem_cons, List.not_mem_nil, or_false] at hp
  rcases hp with rfl | rfl
  · refine .seq _ fun x hx => ?_
    simp only [List.mem_cons, List.not_mem_nil, or_false] at hx
    rcases hx with rfl | rfl <;> exact .leaf _
  · exact .leaf _

theorem at_k : At (.dict es) [.name "k".toList] (.seq [.leaf (.num 1), .leaf (.num 2)]) :=
  .step _ _ _ _ _ (by simp [es]) (.here _)
theorem at_x : At (.dict es) [.name "x".toList] (.leaf (.num 3)) := .step _ _ _ _ _ (by simp [es]) (.here _)

theorem name_text (s : Str) (h1 : ∃ c ∈ s, ∀ d, c ≠ digitChar d) (h2 : ∀ c ∈ s, c ≠ ':' ∧ c ≠ '\'' ∧ ¬ White c) :
    KeyText (.name s) s := .name s h1 h2

theorem int_text : KeyText (.int 1) "1".toList := by
  have := KeyText.int [1] (by simp)
  have e : natOf [1] = 1 := by decide +kernel
  rw [e] at this
  exact this

theorem words (line w : Str) (h : line = w ++ "  990\n".toList) (hw : Solid w) : HasWords line w ["990".toList] :=
  ⟨[], [("  ".toList, "990".toList)], "\n".toList, by rw [h]; simp [lineText], by unfold Blank; decide, by unfold Blank; decide, hw, rfl,
    by unfold Blank Solid; decide +kernel⟩

theorem num990 : Writes (.num 990) "990".toList := by
  have := Writes.num ⟨none, [9, 9, 0], none, none⟩ "990".toList (by simp [Numeral.Ok]) (by decide +kernel)
  have e : Numeral.value ⟨none, [9, 9, 0], none, none⟩ = 990 := by decide +kernel
  rwa [e] at this

theorem values : ValueWords [.num 990] ["990".toList] := by
  refine ⟨false, [(.num 990, "990".toList, 0)], [], by decide +kernel, ?_, by decide +kernel, by simp, by simp, by decide +kernel⟩
  intro x hx
  simp only [List.mem_cons, List.not_mem_nil, or_false] at hx
  rw [hx]
  exact Or.inl num990

theorem entry_item : IsEntry ([.name "k".toList] ++ [.int 1]) [.num 990] "k:1  990\n".toList := by
  refine ⟨"k:1".toList, _, words _ _ rfl (by unfold Solid; decide +kernel), ⟨⟨["k".toList, "1".toList], ?_, by simp, by decide +kernel⟩,
    by decide +kernel, by decide +kernel⟩, values⟩
  exact .cons (name_text _ (by decide +kernel) (by decide +kernel)) (.cons int_text .nil)

theorem entry_below : IsEntry ([.name "x".toList] ++ [.int 1]) [.num 990] "x:1  990\n".toList := by
  refine ⟨"x:1".toList, _, words _ _ rfl (by unfold Solid; decide +kernel), ⟨⟨["x".toList, "1".toList], ?_, by simp, by decide +kernel⟩,
    by decide +kernel, by decide +kernel⟩, values⟩
  exact .cons (name_text _ (by decide +kernel) (by decide +kernel)) (.cons int_text .nil)

theorem entry_new : IsEntry [.name "y".toList, .int 1] [.num 990] "y:1  990\n".toList := by
  refine ⟨"y:1".toList, _, words _ _ rfl (by unfold Solid; decide +kernel), ⟨⟨["y".toList, "1".toList], ?_, by simp, by decide +kernel⟩,
    by decide +kernel, by decide +kernel⟩, values⟩
  exact .cons (name_text _ (by decide +kernel) (by decide +kernel)) (.cons int_text .nil)

theorem name_int : IsName (.int 1) "1".toList := by
  refine ⟨"1".toList, ⟨[], [], [], by decide +kernel, by unfold Blank; decide, by unfold Blank; decide,
    by unfold Solid; decide +kernel, rfl, by simp⟩, ⟨["1".toList], .cons int_text .nil, by simp, by decide +kernel⟩,
    by decide +kernel, by decide +kernel⟩

theorem rule : IsRule "--".toList := ⟨[], [], by unfold Blank; decide, rfl⟩

example := C52_entry st _ es _ _ _ rfl wf entry_new (by
  intro q t hq hne h
  cases h with
  | here => exact ⟨_, rfl⟩
  | step _ k _ _ _ hm _ =>
    obtain rfl : k = .name "y".toList := (List.cons_prefix_cons.1 hq).1
    simp [es] at hm)
example := (C52_list_item st _ es _ _ _ _ _ rfl wf entry_item at_k).1 1 rfl (by decide)
example := (C52_below_value st _ es _ _ _ _ _ rfl wf entry_below at_x (fun _ h => by cases h)).2 rfl ⟨_, rfl⟩
example := C52_no_name ["# x".toList] "--".toList ["y 5".toList] (by
  intro s hs
  simp only [List.mem_cons, List.not_mem_nil, or_false] at hs
  subst hs
  exact .inr ⟨[], " x".toList, by unfold Blank; decide, rfl⟩) rule
example := C52_integer_name 1 _ _ _ ["k:1  990\n".toList] [] _ name_int rule (.entry _ _ _ _ _ entry_item .nil)
  (by simp) rule
/-- The same lines as the reader sees them. -/
example : errOf ["p".toList, "--".toList, "k 1 2".toList, "k:1 5".toList, "--".toList] = none ∧
    errOf ["p".toList, "--".toList, "k 1 2".toList, "k:2 5".toList, "--".toList] = some .indexError ∧
    errOf ["p".toList, "--".toList, "k 1 2".toList, "k:a 5".toList, "--".toList] = some .typeError ∧
    errOf ["0".toList, "--".toList] = some .valueError ∧ errOf ["1".toList, "--".toList] = none ∧
    errOf ["1".toList, "--".toList, "--".toList] = some .typeError := by decide +kernel

end ErrorDemo

end Specs
end Ade
