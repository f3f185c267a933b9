import Verif.Model.SpecNames
import Verif.Props.SpecsDoc

/-!
# Any name can be given to a specification (C150)
-/

set_option autoImplicit false

namespace Ade
namespace SpecNames

open Specs (Str Key Tree St Err lookup put White Blank Solid HasWords IsSkip IsRule IsEntry IsName Doc Body Content meaning)

/-- The names that the object uses itself. -/
def Taken (n : Str) : Prop :=
  n ∈ ["dict_start".toList, "dict_add".toList, "dict_done".toList, "add".toList, "get".toList, "ds".toList]

instance (n : Str) : Decidable (Taken n) := by unfold Taken; infer_instance

/-- No attribute has a name that the object uses itself. -/
def Clean (attrs : List (Key × Tree)) : Prop := ∀ n, Taken n → lookup attrs (.name n) = none

theorem hidden_clean (st : St) (h : Clean st.attrs) (m : String) (hm : Taken m.toList) : hidden st m = false := by
  unfold hidden nm
  rw [h _ hm]; rfl

theorem erase_absent (es : List (Key × Tree)) (k : Key) (h : lookup es k = none) : erase es k = es := by
  unfold erase
  rw [List.filter_eq_self]
  intro e he
  induction es with
  | nil => simp at he
  | cons x es ih =>
    obtain ⟨k', t⟩ := x
    rw [lookup] at h
    split_ifs at h with hk
    rcases List.mem_cons.1 he with rfl | he
    · simpa using hk
    · exact ih h he

theorem lookup_erase (es : List (Key × Tree)) (k : Key) : lookup (erase es k) k = none := by
  unfold erase
  induction es with
  | nil => rfl
  | cons x es ih =>
    obtain ⟨k', t⟩ := x
    rw [List.filter_cons]
    split_ifs with hk
    · rw [lookup, if_neg (by simpa using hk)]; exact ih
    · exact ih

theorem lookup_erase_other (es : List (Key × Tree)) (k k' : Key) (h : k' ≠ k) : lookup (erase es k) k' = lookup es k' := by
  unfold erase
  induction es with
  | nil => rfl
  | cons x es ih =>
    obtain ⟨k'', t⟩ := x
    rw [List.filter_cons]
    split_ifs with hk
    · simp only [lookup]; rw [ih]
    · have : k'' = k := by simpa using hk
      rw [ih, lookup, if_neg (fun e => h (e.symm.trans this))]

/-! ## The two readers -/

theorem readLine_lineOf (st : St) (line : Str) :
    Specs.readLine st line = match lineOf line with
      | .skip => .ok st
      | .rule => Specs.hyphens st
      | .words first tokens => Specs.entry st first tokens := by
  unfold Specs.readLine lineOf
  generalize Specs.strip line = s
  dsimp only
  split
  · rfl
  · rfl
  · rfl
  · split <;> simp_all

/-- A step of the reader leaves the names that are there. -/
theorem addAttr_grows (st st' : St) (k : Key) (t : Tree) (h : Specs.addAttr st k t = .ok st') (n : Key)
    (hn : lookup st'.attrs n = none) : lookup st.attrs n = none := by
  cases k with
  | int m => simp [Specs.addAttr] at h
  | name s =>
    simp only [Specs.addAttr, Except.ok.injEq] at h
    subst h
    dsimp only at hn
    rw [Specs.lookup_put] at hn
    split_ifs at hn
    exact hn

theorem store_grows (st st' : St) (parts : List Key) (v : Tree) (h : Specs.store st parts v = .ok st') (n : Key)
    (hn : lookup st'.attrs n = none) : lookup st.attrs n = none := by
  unfold Specs.store at h
  split at h
  · rename_i name es k ks hb
    cases hs : Specs.stack es k ks v with
    | error e => rw [hs] at h; cases h
    | ok es' =>
      rw [hs] at h
      simp only [bind, Except.bind, pure, Except.pure, Except.ok.injEq] at h
      subst h; exact hn
  · exact addAttr_grows st st' _ v h n hn
  · simp only [Except.ok.injEq] at h; subst h; exact hn

theorem assign_grows (st st' : St) (parts : List Key) (ts : List Str) (h : Specs.assign st parts ts = .ok st') (n : Key)
    (hn : lookup st'.attrs n = none) : lookup st.attrs n = none := by
  cases ts with
  | nil => simp [Specs.assign] at h
  | cons t ts => exact store_grows st st' parts _ h n hn

theorem entry_grows (st st' : St) (first : Str) (ts : List Str) (h : Specs.entry st first ts = .ok st') (n : Key)
    (hn : lookup st'.attrs n = none) : lookup st.attrs n = none := by
  unfold Specs.entry at h
  dsimp only at h
  split at h
  · exact assign_grows st st' _ ts h n hn
  · split_ifs at h
    · simp only [Except.ok.injEq] at h; subst h; exact hn
    · exact assign_grows st st' _ ts h n hn

theorem hyphens_grows (st st' : St) (h : Specs.hyphens st = .ok st') (n : Key)
    (hn : lookup st'.attrs n = none) : lookup st.attrs n = none := by
  unfold Specs.hyphens at h
  split at h
  · rename_i name es hb
    cases ha : Specs.addAttr st name (.dict es) with
    | error e => rw [ha] at h; cases h
    | ok st1 =>
      rw [ha] at h
      simp only [bind, Except.bind, pure, Except.pure, Except.ok.injEq] at h
      subst h
      exact addAttr_grows st st1 name _ ha n hn
  · split at h
    · cases h
    · split_ifs at h
      simp only [Except.ok.injEq] at h; subst h; exact hn

theorem readLine_grows (st st' : St) (line : Str) (h : Specs.readLine st line = .ok st') (n : Key)
    (hn : lookup st'.attrs n = none) : lookup st.attrs n = none := by
  rw [readLine_lineOf] at h
  cases hl : lineOf line with
  | skip => rw [hl] at h; simp only [Except.ok.injEq] at h; subst h; exact hn
  | rule => rw [hl] at h; exact hyphens_grows st st' h n hn
  | words w ws => rw [hl] at h; exact entry_grows st st' w ws h n hn

theorem fold_grows (lines : List Str) : ∀ (st st' : St), lines.foldlM Specs.readLine st = .ok st' → ∀ n : Key,
    lookup st'.attrs n = none → lookup st.attrs n = none := by
  induction lines with
  | nil => intro st st' h n hn; simp only [List.foldlM_nil, pure, Except.pure, Except.ok.injEq] at h; subst h; exact hn
  | cons l ls ih =>
    intro st st' h n hn
    rw [List.foldlM_cons] at h
    cases h1 : Specs.readLine st l with
    | error e => rw [h1] at h; cases h
    | ok st1 =>
      rw [h1] at h
      exact readLine_grows st st1 l h1 n (ih st1 st' h n hn)

theorem taken_add : Taken "add".toList := by decide
theorem taken_ds : Taken "ds".toList := by decide

theorem act_same (st st' : St) (line : Str) (hc : Clean st.attrs) (hc' : Clean st'.attrs)
    (h : Specs.readLine st line = .ok st') : act st (lineOf line) = .ok st' := by
  have hadd : hidden st "add" = false := hidden_clean st hc _ taken_add
  rw [readLine_lineOf] at h
  have hstore : ∀ parts v, Specs.store st parts v = .ok st' → store st parts v = .ok st' := by
    intro parts v h
    unfold Specs.store at h
    unfold store
    split at h
    · rename_i name es k ks hb
      rw [hb]
      dsimp only
      rw [hidden_clean st hc _ (by decide), if_neg (by simp)]
      exact h
    · rename_i k ks hb
      rw [hb]
      dsimp only
      rw [addAttr, hadd, if_neg (by simp)]; exact h
    · split <;> simp_all
  have hassign : ∀ parts ts, Specs.assign st parts ts = .ok st' → assign st parts ts = .ok st' := by
    intro parts ts h
    cases ts with
    | nil => simp [Specs.assign] at h
    | cons t ts => exact hstore parts _ h
  cases hl : lineOf line with
  | skip => rw [hl] at h; exact h
  | words w ws =>
    rw [hl] at h
    dsimp only at h
    show entry st w ws = .ok st'
    unfold Specs.entry at h
    unfold entry
    dsimp only at h ⊢
    split at h
    · rename_i x hb; rw [hb]; exact hassign _ _ h
    · rename_i hb
      rw [hb]
      dsimp only
      split_ifs at h ⊢
      · rw [hb] at h; exact h
      · exact hassign _ _ h
  | rule =>
    rw [hl] at h
    dsimp only at h
    show hyphens st = .ok st'
    unfold Specs.hyphens at h
    unfold hyphens
    split at h
    · rename_i name es hb
      rw [hb]
      dsimp only
      rw [dictDone, hidden_clean st hc _ (by decide), if_neg (by simp), addAttr, hadd, if_neg (by simp)]
      cases ha : Specs.addAttr st name (.dict es) with
      | error e => rw [ha] at h; cases h
      | ok st1 =>
        rw [ha] at h
        simp only [bind, Except.bind, pure, Except.pure, Except.ok.injEq] at h ⊢
        subst h
        rw [nm, erase_absent st1.attrs _ (hc' _ taken_ds)]
    · rename_i hb
      rw [hb]
      dsimp only
      split at h
      · cases h
      · rename_i name hn
        rw [hn]
        dsimp only
        split_ifs at h ⊢
        rw [dictStart, hidden_clean st hc _ (by decide), if_neg (by simp), nm, erase_absent _ _ (hc _ taken_ds)]
        exact h

theorem fold_same (lines : List Str) : ∀ (st st' : St), Clean st'.attrs → lines.foldlM Specs.readLine st = .ok st' →
    lines.foldlM (fun st l => act st (lineOf l)) st = .ok st' := by
  induction lines with
  | nil => intro st st' _ h; exact h
  | cons l ls ih =>
    intro st st' hc h
    have h0 := h
    rw [List.foldlM_cons] at h ⊢
    cases h1 : Specs.readLine st l with
    | error e => rw [h1] at h; cases h
    | ok st1 =>
      rw [h1] at h
      have hc1 : Clean st1.attrs := fun n hn => fold_grows ls st1 st' h _ (hc n hn)
      have hc0 : Clean st.attrs := fun n hn => fold_grows (l :: ls) st st' h0 _ (hc n hn)
      rw [act_same st st1 l hc0 hc1 h1]
      exact ih st1 st' hc h

theorem read_same (lines : List Str) (st : St) (h : Specs.read lines = .ok st) (hc : Clean st.attrs) :
    read lines = .ok (st, lines.length) := by
  unfold Specs.read at h
  unfold read
  split_ifs at h ⊢ with hl
  rw [fold_same lines _ st hc h]
  rfl

theorem find_same (st : St) (hc : Clean st.attrs) (hb : st.building = none) (n : Str) (hn : ¬ Taken n) (q : List Key) :
    ∃ t, Specs.get st.attrs (.name n) q = .ok t ∧ get st (.name n) q = .ok (.tree t) := by
  refine ⟨_, rfl, ?_⟩
  unfold get
  rw [hidden_clean st hc _ (by decide), if_neg (by simp)]
  dsimp only
  unfold find
  cases hl : lookup st.attrs (.name n) with
  | some t => rfl
  | none =>
    rw [hb]
    have hm : n ∉ methods.map String.toList := by
      intro hm
      apply hn
      unfold Taken
      simp only [methods, List.map_cons, List.map_nil] at hm
      simp only [List.mem_cons, List.not_mem_nil, or_false] at hm ⊢
      tauto
    simp only [Option.isSome_none, Bool.false_eq_true, and_false, if_false]
    rw [if_neg hm]
    cases q with
    | nil => simp only [Specs.getIn, hl]
    | cons k ks => simp only [Specs.getIn, hl]

/-- C150: a well-formed document that defines none of the six names is loaded, with the message about the number of its lines, and every
name but those six is looked up as described by C63: the objects and lookups are those of the reader that has all names free. -/
theorem C150_document_partial (lines : List Str) (d : List (Str × Content)) (h : Doc lines d) (hne : lines ≠ [])
    (hd : ∀ x ∈ d, ¬ Taken x.1) :
    ∃ st, load (some lines) = .loaded st lines.length ∧ Specs.read lines = .ok st ∧
      ∀ n q, ¬ Taken n → ∃ t, Specs.get st.attrs (.name n) q = .ok t ∧ get st (.name n) q = .ok (.tree t) := by
  obtain ⟨st, h1, h2, h3⟩ := Specs.fold_doc ⟨[], none, none⟩ lines d h rfl
  have hr : Specs.read lines = .ok st := by rw [Specs.read, if_neg hne]; exact h1
  have hc : Clean st.attrs := fun n hn => by
    rw [(h3 n).2 fun x hx e => hd x hx (e ▸ hn)]; rfl
  refine ⟨st, ?_, hr, fun n q hn => find_same st hc h2 n hn q⟩
  unfold load
  dsimp only
  rw [read_same lines st hr hc]

/-- C150 fails for a name that is not defined but a method: the lookup gives the method instead of an empty dict. -/
theorem C150_method_found (lines : List Str) (d : List (Str × Content)) (h : Doc lines d) (hne : lines ≠ [])
    (hd : ∀ x ∈ d, ¬ Taken x.1) (m : String) (hm : m ∈ methods) (q : List Key) :
    ∃ st, load (some lines) = .loaded st lines.length ∧ get st (nm m) q = .ok .method := by
  obtain ⟨st, h1, h2, h3⟩ := Specs.fold_doc ⟨[], none, none⟩ lines d h rfl
  have hr : Specs.read lines = .ok st := by rw [Specs.read, if_neg hne]; exact h1
  have hc : Clean st.attrs := fun n hn => by
    rw [(h3 n).2 fun x hx e => hd x hx (e ▸ hn)]; rfl
  refine ⟨st, ?_, ?_⟩
  · unfold load
    dsimp only
    rw [read_same lines st hr hc]
  · have ht : Taken m.toList := by
      simp only [methods, List.mem_cons, List.not_mem_nil, or_false] at hm
      rcases hm with rfl | rfl | rfl | rfl | rfl <;> decide
    unfold get
    rw [hidden_clean st hc _ (by decide), if_neg (by simp)]
    unfold nm
    dsimp only
    unfold find
    rw [hc _ ht, h2]
    simp only [Option.isSome_none, Bool.false_eq_true, and_false, if_false]
    rw [if_pos (List.mem_map_of_mem hm)]

/-! ## Names that are taken -/

theorem lineOf_words (line w : Str) (ws : List Str) (h : HasWords line w ws) (h1 : w.head? ≠ some '#') (h2 : ¬ ['-', '-'] <+: w) :
    lineOf line = .words w ws := by
  obtain ⟨lead, rest, trail, rfl, hl, ht, hw, rfl, hr⟩ := h
  obtain ⟨c, s, rfl, hc⟩ := Specs.solid_head w hw
  have hstrip : Specs.strip (Specs.lineText lead (c :: s) rest trail) =
      (c :: s) ++ rest.flatMap fun p => p.1 ++ p.2 := by
    unfold Specs.lineText
    refine Specs.strip_core lead _ trail hl ht (by simpa using hc) ?_ (by simp)
    obtain ⟨x, hx, hx'⟩ := Specs.core_last (c :: s) rest hw hr
    intro y hy
    rw [hx] at hy
    simp only [Option.some.injEq] at hy
    rw [← hy]; exact hx'
  have hsplit := Specs.split_words (c :: s) rest hw hr
  have hnd : ¬ ['-', '-'] <+: (c :: s) ++ rest.flatMap fun p => p.1 ++ p.2 := by
    intro hp
    obtain ⟨y, hy⟩ := hp
    simp only [List.cons_append, List.nil_append, List.cons.injEq] at hy
    cases s with
    | nil =>
      cases rest with
      | nil => simp at hy
      | cons p rest =>
        obtain ⟨g1, g2, _⟩ := hr p List.mem_cons_self
        cases hg : p.1 with
        | nil => exact absurd hg g1
        | cons x g =>
          rw [List.nil_append, List.flatMap_cons, hg] at hy
          simp only [List.cons_append, List.cons.injEq] at hy
          have := g2 x (by rw [hg]; exact List.mem_cons_self)
          rw [← hy.2.1] at this
          revert this; decide
    | cons x s =>
      simp only [List.cons_append, List.cons.injEq] at hy
      exact h2 ⟨s, by rw [← hy.1, ← hy.2.1]; rfl⟩
  unfold lineOf
  rw [hstrip]
  split
  · rename_i h; simp at h
  · rename_i h
    simp only [List.cons_append, List.cons.injEq] at h
    exact absurd (by rw [h.1]; rfl) h1
  · rename_i y h
    exact absurd ⟨y, h.symm⟩ hnd
  · rw [hsplit]

theorem act_entry (st : St) (n : Str) (vs : List Specs.Scalar) (line : Str) (h : IsEntry [.name n] vs line)
    (hb : st.building = none) : act st (lineOf line) = addAttr st (.name n) (meaning vs) := by
  obtain ⟨w, ws, h1, h2, h3⟩ := h
  rw [lineOf_words line w ws h1 h2.2.1 h2.2.2]
  show entry st w ws = _
  have ha : Specs.assign st [.name n] ws = Specs.store st [.name n] (meaning vs) := (Specs.assign_words st _ vs ws h3).2
  have hne : ws ≠ [] := (Specs.assign_words st [] vs ws h3).1
  unfold entry
  rw [Specs.parseName_path _ w h2, hb]
  simp only [List.length_cons, List.length_nil, zero_add, lt_irrefl, if_false, hne]
  cases ws with
  | nil => exact absurd rfl hne
  | cons t ts =>
    show store st [.name n] _ = _
    unfold store
    rw [hb]
    dsimp only
    unfold addAttr
    by_cases hh : hidden st "add" = true
    · rw [if_pos hh, if_pos hh]
    · rw [if_neg hh, if_neg hh]
      simp only [Specs.assign, Specs.store, hb] at ha
      exact ha

theorem fold_clean (pre : List Str) (d : List (Str × Content)) (h : Doc pre d) (hd : ∀ x ∈ d, ¬ Taken x.1) :
    ∃ st : St, pre.foldlM Specs.readLine ⟨[], none, none⟩ = .ok st ∧
      pre.foldlM (fun st l => act st (lineOf l)) ⟨[], none, none⟩ = .ok st ∧ st.building = none ∧ Clean st.attrs := by
  obtain ⟨st, h1, h2, h3⟩ := Specs.fold_doc ⟨[], none, none⟩ pre d h rfl
  have hc : Clean st.attrs := fun n hn => by
    rw [(h3 n).2 fun x hx e => hd x hx (e ▸ hn)]; rfl
  exact ⟨st, h1, fold_same pre _ st hc h1, h2, hc⟩

theorem lineOf_skip (line : Str) (h : IsSkip line) : lineOf line = .skip := by
  unfold lineOf
  rcases h with h | ⟨lead, s, h, rfl⟩
  · rw [Specs.strip_blank line h]
  · obtain ⟨s', hs, -⟩ := Specs.strip_lead lead s '#' h (by decide)
    rw [hs]
    rfl

theorem lineOf_rule (line : Str) (h : IsRule line) : lineOf line = .rule := by
  obtain ⟨lead, s, h, rfl⟩ := h
  obtain ⟨s', hs, hs'⟩ := Specs.strip_lead lead ('-' :: s) '-' h (by decide)
  have := hs' '-' rfl (by decide)
  unfold lineOf
  rw [hs]
  cases s' with
  | nil => simp at this
  | cons c s' =>
    simp only [List.head?_cons, Option.some.injEq] at this
    subst this
    rfl

theorem skips_act (st : St) (skips : List Str) (h : ∀ s ∈ skips, IsSkip s) :
    skips.foldlM (fun st l => act st (lineOf l)) st = .ok st := by
  induction skips with
  | nil => rfl
  | cons s skips ih =>
    rw [List.foldlM_cons, lineOf_skip s (h s List.mem_cons_self)]
    exact ih fun x hx => h x (List.mem_cons_of_mem _ hx)

theorem addAttr_clean (st : St) (hc : Clean st.attrs) (n : Str) (t : Tree) :
    addAttr st (.name n) t = .ok { st with attrs := put st.attrs (.name n) t } := by
  rw [addAttr, hidden_clean st hc _ taken_add, if_neg (by simp)]; rfl

/-- C150 fails for the name `add`: with a specification of that name, the next one, whatever its name, makes the loading fail with a
`TypeError`. -/
theorem C150_add_taken (pre : List Str) (d : List (Str × Content)) (h : Doc pre d) (hd : ∀ x ∈ d, ¬ Taken x.1)
    (vs vs' : List Specs.Scalar) (l l' : Str) (n : Str) (skips ls : List Str) (hl : IsEntry [.name "add".toList] vs l)
    (hs : ∀ s ∈ skips, IsSkip s) (hl' : IsEntry [.name n] vs' l') :
    load (some (pre ++ l :: (skips ++ l' :: ls))) = .raised .typeError := by
  obtain ⟨st, -, h2, hb, hc⟩ := fold_clean pre d h hd
  unfold load
  dsimp only
  unfold read
  rw [if_neg (by simp), List.foldlM_append, h2]
  simp only [bind, Except.bind]
  rw [List.foldlM_cons, act_entry st _ vs l hl hb, addAttr_clean st hc]
  simp only [bind, Except.bind]
  rw [List.foldlM_append, skips_act _ skips hs]
  simp only [bind, Except.bind]
  rw [List.foldlM_cons, act_entry _ _ vs' l' hl' (by exact hb), addAttr]
  have : hidden { st with attrs := put st.attrs (.name "add".toList) (meaning vs) } "add" = true := by
    unfold hidden nm
    dsimp only
    rw [Specs.lookup_put, if_pos rfl]; rfl
  rw [if_pos this]
  rfl

theorem act_in_dict (st : St) (path : List Key) (vs : List Specs.Scalar) (line : Str) (name : Key) (es : List (Key × Tree))
    (h : IsEntry path vs line) (hb : st.building = some (name, es)) :
    act st (lineOf line) = if hidden st "dict_add" then .error .typeError else Specs.readLine st line := by
  have hr := Specs.readLine_entry st path vs line h (Or.inl (by simp [hb]))
  obtain ⟨w, ws, h1, h2, h3⟩ := h
  rw [hr, lineOf_words line w ws h1 h2.2.1 h2.2.2]
  show entry st w ws = _
  obtain ⟨hne, ha⟩ := Specs.assign_words st path vs ws h3
  unfold entry
  rw [Specs.parseName_path _ w h2, hb]
  dsimp only
  cases ws with
  | nil => exact absurd rfl hne
  | cons t ts =>
    cases path with
    | nil => exact absurd rfl (Specs.pathText_ne_nil _ _ h2)
    | cons k ks =>
      rw [← ha]
      simp only [assign, store, Specs.assign, Specs.store, hb]

theorem act_name (st : St) (k : Key) (line : Str) (h : IsName k line) (hb : st.building = none) :
    act st (lineOf line) = .ok { st with dictName := some k } := by
  obtain ⟨w, h1, h2⟩ := h
  rw [lineOf_words line w [] h1 h2.2.1 h2.2.2]
  show entry st w [] = _
  simp [entry, Specs.parseName_path [k] w h2, hb]

theorem body_error (body : List Str) (es : List (List Key × Tree)) (h : Body body es) (hes : es ≠ []) (st : St) (name : Key)
    (cur : List (Key × Tree)) (hb : st.building = some (name, cur)) (hh : hidden st "dict_add" = true) (ls : List Str) :
    (body ++ ls).foldlM (fun st l => act st (lineOf l)) st = .error .typeError := by
  induction h with
  | nil => exact absurd rfl hes
  | skip l ls' es hl _ ih =>
    rw [List.cons_append, List.foldlM_cons, lineOf_skip l hl]
    exact ih hes
  | entry l ls' es p vs hl _ ih =>
    rw [List.cons_append, List.foldlM_cons, act_in_dict st p vs l name cur hl hb, if_pos hh]
    rfl

theorem body_same (body : List Str) (es : List (List Key × Tree)) (h : Body body es) : ∀ (st st' : St) (name : Key)
    (cur : List (Key × Tree)), st.building = some (name, cur) → hidden st "dict_add" = false →
    body.foldlM Specs.readLine st = .ok st' → body.foldlM (fun st l => act st (lineOf l)) st = .ok st' := by
  induction h with
  | nil => intro st st' name cur _ _ hr; exact hr
  | skip l ls es hl _ ih =>
    intro st st' name cur hb hh hr
    rw [List.foldlM_cons, Specs.readLine_skip st l hl] at hr
    rw [List.foldlM_cons, lineOf_skip l hl]
    exact ih st st' name cur hb hh hr
  | entry l ls es p vs hl _ ih =>
    intro st st' name cur hb hh hr
    have hp : p ≠ [] := by
      obtain ⟨w, ws, h1, h2, h3⟩ := hl
      exact Specs.pathText_ne_nil _ _ h2
    rw [List.foldlM_cons] at hr
    rw [List.foldlM_cons, act_in_dict st p vs l name cur hl hb, if_neg (by rw [hh]; simp)]
    have e := Specs.readLine_entry st p vs l hl (Or.inl (by simp [hb]))
    cases p with
    | nil => exact absurd rfl hp
    | cons k ks =>
      simp only [Specs.store, hb] at e
      cases hs : Specs.stack cur k ks (meaning vs) with
      | error x =>
        rw [hs] at e
        simp only [bind, Except.bind] at e
        rw [e] at hr; cases hr
      | ok cur' =>
        rw [hs] at e
        simp only [bind, Except.bind, pure, Except.pure] at e
        rw [e] at hr ⊢
        exact ih _ st' name cur' rfl (by exact hh) hr

/-- C150 fails for the names `dict_start`, `dict_add` and `dict_done`: with a specification of one of these names, the next dict that has
an entry, whatever its name, makes the loading fail with a `TypeError`. -/
theorem C150_dict_taken (pre : List Str) (d : List (Str × Content)) (h : Doc pre d) (hd : ∀ x ∈ d, ¬ Taken x.1) (m : String)
    (hm : m = "dict_start" ∨ m = "dict_add" ∨ m = "dict_done") (vs : List Specs.Scalar) (l : Str) (hl : IsEntry [.name m.toList] vs l)
    (n l' : Str) (skips : List Str) (r1 : Str) (body : List Str) (r2 : Str) (ls : List Str) (es : List (List Key × Tree))
    (hl' : IsName (.name n) l') (hsk : ∀ s ∈ skips, IsSkip s) (hr1 : IsRule r1) (hbody : Body body es) (hes : es ≠ [])
    (hpre : ∀ p ∈ es, ∀ q ∈ es, p.1 <+: q.1 → p.1 = q.1) (hr2 : IsRule r2) :
    load (some (pre ++ l :: l' :: (skips ++ r1 :: (body ++ r2 :: ls)))) = .raised .typeError := by
  obtain ⟨st, -, h2, hb, hc⟩ := fold_clean pre d h hd
  have hn : n ≠ [] := by
    obtain ⟨w, _, ⟨texts, hk, _, _⟩, _⟩ := hl'
    cases hk with
    | cons hk _ =>
      cases hk with
      | name _ hc _ =>
        obtain ⟨c, hc, _⟩ := hc
        rintro rfl
        simp at hc
  obtain ⟨cur, hcur, -⟩ := Specs.stackAll_holds [] es [] Specs.holds_nil (by
    simpa using Specs.body_good body es hbody hpre)
  have hds : m.toList ≠ "ds".toList := by rcases hm with rfl | rfl | rfl <;> decide
  have hid : ∀ (b : Option (Key × List (Key × Tree))) (x : Option Key) (m' : String), Taken m'.toList →
      hidden ⟨put st.attrs (.name m.toList) (meaning vs), b, x⟩ m' = decide (m'.toList = m.toList) := by
    intro b x m' ht
    unfold hidden nm
    dsimp only
    rw [Specs.lookup_put]
    split_ifs with e
    · simp only [Key.name.injEq] at e; simp [e]
    · have : m'.toList ≠ m.toList := fun e' => e (by rw [e'])
      rw [hc _ ht]; simp [this]
  have hid' : ∀ (b : Option (Key × List (Key × Tree))) (x : Option Key) (m' : String), Taken m'.toList → m'.toList ≠ "ds".toList →
      hidden ⟨erase (put st.attrs (.name m.toList) (meaning vs)) (nm "ds"), b, x⟩ m' = decide (m'.toList = m.toList) := by
    intro b x m' ht hne
    rw [← hid b x m' ht]
    unfold hidden
    dsimp only
    rw [lookup_erase_other _ _ _ (by unfold nm; simpa using hne)]
  unfold load
  dsimp only
  unfold read
  rw [if_neg (by simp)]
  have key : (pre ++ l :: l' :: (skips ++ r1 :: (body ++ r2 :: ls))).foldlM (fun st l => act st (lineOf l)) ⟨[], none, none⟩ =
      .error .typeError := by
    rw [List.foldlM_append, h2]
    simp only [bind, Except.bind]
    rw [List.foldlM_cons, act_entry st _ vs l hl hb, addAttr_clean st hc]
    simp only [bind, Except.bind]
    rw [List.foldlM_cons, act_name _ (.name n) l' hl' (by exact hb)]
    simp only [bind, Except.bind]
    rw [List.foldlM_append, skips_act _ skips hsk]
    simp only [bind, Except.bind]
    rw [List.foldlM_cons, lineOf_rule r1 hr1]
    have estart : act { attrs := put st.attrs (.name m.toList) (meaning vs), building := st.building, dictName := some (.name n) } .rule =
        if m = "dict_start" then .error .typeError else
          .ok ⟨erase (put st.attrs (.name m.toList) (meaning vs)) (nm "ds"), some (.name n, []), some (.name n)⟩ := by
      unfold act hyphens
      dsimp only
      rw [hb]
      dsimp only
      rw [if_pos (by simp [Key.truthy, hn]), dictStart, hid _ _ _ (by decide)]
      rcases hm with rfl | rfl | rfl <;> rfl
    rw [estart]
    rcases hm with rfl | rfl | rfl
    · rfl
    · rw [if_neg (by decide)]
      simp only [bind, Except.bind]
      exact body_error body es hbody hes _ (.name n) [] rfl (by rw [hid' _ _ _ (by decide) (by decide)]; decide) _
    · rw [if_neg (by decide)]
      simp only [bind, Except.bind]
      rw [List.foldlM_append]
      have hread := Specs.fold_body ⟨erase (put st.attrs (.name "dict_done".toList) (meaning vs)) (nm "ds"), some (.name n, []),
        some (.name n)⟩ (.name n) [] cur body es hbody rfl hcur
      rw [body_same body es hbody _ _ (.name n) [] rfl (by rw [hid' _ _ _ (by decide) (by decide)]; decide) hread]
      simp only [bind, Except.bind]
      rw [List.foldlM_cons, lineOf_rule r2 hr2]
      have : act ⟨erase (put st.attrs (.name "dict_done".toList) (meaning vs)) (nm "ds"), some (.name n, cur), some (.name n)⟩ .rule =
          .error .typeError := by
        unfold act hyphens
        dsimp only
        rw [dictDone, hid' _ _ _ (by decide) (by decide), if_pos (by decide)]
      rw [this]
      rfl
  rw [key]
  rfl

/-- C150 fails for the name `get`: with a specification of that name the loaded object answers every lookup with a `TypeError`. -/
theorem C150_get_taken (pre : List Str) (d : List (Str × Content)) (h : Doc pre d) (hd : ∀ x ∈ d, ¬ Taken x.1)
    (vs : List Specs.Scalar) (l : Str) (hl : IsEntry [.name "get".toList] vs l) :
    ∃ st, load (some (pre ++ [l])) = .loaded st (pre.length + 1) ∧ ∀ first q, get st first q = .error .typeError := by
  obtain ⟨st, -, h2, hb, hc⟩ := fold_clean pre d h hd
  refine ⟨{ st with attrs := put st.attrs (.name "get".toList) (meaning vs) }, ?_, ?_⟩
  · unfold load
    dsimp only
    unfold read
    rw [if_neg (by simp), List.foldlM_append, h2]
    simp only [bind, Except.bind]
    rw [List.foldlM_cons, act_entry st _ vs l hl hb, addAttr_clean st hc]
    simp [bind, Except.bind, pure, Except.pure, Except.map]
  · intro first q
    unfold get
    have : hidden { st with attrs := put st.attrs (.name "get".toList) (meaning vs) } "get" = true := by
      unfold hidden nm
      dsimp only
      rw [Specs.lookup_put, if_pos rfl]; rfl
    rw [if_pos this]

/-- C150 fails for the name `ds`: its value is lost at every line of hyphens, that is, when any dict follows. -/
theorem C150_ds_dropped (st st' : St) (line : Str) (h : IsRule line) (hs : act st (lineOf line) = .ok st') :
    lookup st'.attrs (nm "ds") = none := by
  rw [lineOf_rule line h] at hs
  change hyphens st = .ok st' at hs
  unfold hyphens at hs
  split at hs
  · rename_i name es hb
    unfold dictDone at hs
    split_ifs at hs
    cases ha : addAttr st name (.dict es) with
    | error e => rw [ha] at hs; cases hs
    | ok st1 =>
      rw [ha] at hs
      simp only [bind, Except.bind, pure, Except.pure, Except.ok.injEq] at hs
      subst hs
      exact lookup_erase _ _
  · split at hs
    · cases hs
    · split_ifs at hs
      unfold dictStart at hs
      split_ifs at hs
      simp only [Except.ok.injEq] at hs
      subst hs
      exact lookup_erase _ _

/-- C150 fails for a dict of the name `ds`: it is lost when it is finished, and looking it up gives an empty dict. -/
theorem C150_ds_dict_lost (pre : List Str) (d : List (Str × Content)) (h : Doc pre d) (hd : ∀ x ∈ d, ¬ Taken x.1)
    (l : Str) (skips : List Str) (r1 : Str) (body : List Str) (r2 : Str) (es : List (List Key × Tree))
    (hl : IsName (.name "ds".toList) l) (hsk : ∀ s ∈ skips, IsSkip s) (hr1 : IsRule r1) (hbody : Body body es)
    (hpre : ∀ p ∈ es, ∀ q ∈ es, p.1 <+: q.1 → p.1 = q.1) (hr2 : IsRule r2) :
    ∃ st, load (some (pre ++ l :: (skips ++ r1 :: (body ++ [r2])))) =
        .loaded st (pre.length + skips.length + body.length + 3) ∧
      ∀ q, get st (nm "ds") q = .ok (.tree (.dict [])) := by
  obtain ⟨st, h1, h2, hb, hc⟩ := fold_clean pre d h hd
  obtain ⟨cur, hcur, -⟩ := Specs.stackAll_holds [] es [] Specs.holds_nil (by
    simpa using Specs.body_good body es hbody hpre)
  have e1 := Specs.readLine_name st (.name "ds".toList) l hl hb
  have e2 := Specs.fold_skips { st with dictName := some (.name "ds".toList) } skips hsk
  have e3 : Specs.readLine { st with dictName := some (.name "ds".toList) } r1 =
      .ok { st with dictName := some (.name "ds".toList), building := some (.name "ds".toList, []) } := by
    rw [Specs.readLine_rule _ _ hr1]
    simp [Specs.hyphens, hb, Key.truthy]
  have e4 := Specs.fold_body { st with dictName := some (.name "ds".toList), building := some (.name "ds".toList, []) }
    (.name "ds".toList) [] cur body es hbody rfl hcur
  have hfold : (l :: (skips ++ r1 :: body)).foldlM Specs.readLine st =
      .ok { st with dictName := some (.name "ds".toList), building := some (.name "ds".toList, cur) } := by
    rw [List.foldlM_cons, e1]
    simp only [bind, Except.bind]
    rw [List.foldlM_append, e2]
    simp only [bind, Except.bind]
    rw [List.foldlM_cons, e3]
    simp only [bind, Except.bind]
    exact e4
  have hN := fold_same _ _ _ (by exact hc) hfold
  have hdone : act { st with dictName := some (.name "ds".toList), building := some (.name "ds".toList, cur) } (lineOf r2) =
      .ok ⟨erase (put st.attrs (.name "ds".toList) (.dict cur)) (nm "ds"), none, none⟩ := by
    rw [lineOf_rule r2 hr2]
    unfold act hyphens
    dsimp only
    rw [dictDone, hidden_clean _ (by exact hc) _ (by decide), if_neg (by simp), addAttr_clean _ (by exact hc)]
    rfl
  refine ⟨⟨erase (put st.attrs (.name "ds".toList) (.dict cur)) (nm "ds"), none, none⟩, ?_, ?_⟩
  · unfold load
    dsimp only
    unfold read
    have hsplit : pre ++ l :: (skips ++ r1 :: (body ++ [r2])) = pre ++ ((l :: (skips ++ r1 :: body)) ++ [r2]) := by simp
    rw [if_neg (by simp), hsplit, List.foldlM_append, h2]
    simp only [bind, Except.bind]
    rw [List.foldlM_append, hN]
    simp only [bind, Except.bind]
    rw [List.foldlM_cons, hdone]
    simp only [bind, Except.bind, List.foldlM_nil, pure, Except.pure, Except.map, List.length_append, List.length_cons, List.length_nil]
    congr 1
    omega
  · intro q
    unfold get
    have : hidden ⟨erase (put st.attrs (.name "ds".toList) (.dict cur)) (nm "ds"), none, none⟩ "get" = false := by
      unfold hidden
      dsimp only
      rw [lookup_erase_other _ _ _ (by decide), Specs.lookup_put, if_neg (by decide), nm, hc _ (by decide)]
      rfl
    rw [if_neg (by rw [this]; simp)]
    unfold nm
    dsimp only
    unfold find
    have hnone : lookup (erase (put st.attrs (.name "ds".toList) (.dict cur)) (.name "ds".toList)) (.name "ds".toList) = none :=
      lookup_erase _ _
    dsimp only
    rw [hnone]
    have hm : "ds".toList ∉ methods.map String.toList := by decide
    simp only [Option.isSome_none, Bool.false_eq_true, and_false, if_false]
    rw [if_neg hm]

/-- C150: a file that does not exist, and no other, is reported by an `OSError`. -/
theorem C150_no_file (file : Option (List Str)) : load file = .osError ↔ file = none := by
  cases file with
  | none => exact ⟨fun _ => rfl, fun _ => rfl⟩
  | some lines =>
    unfold load
    dsimp only
    cases read lines with
    | error e => simp
    | ok p => simp

namespace Demo

theorem skips : ∀ s ∈ ["# x".toList], IsSkip s := by
  intro s hs
  simp only [List.mem_cons, List.not_mem_nil, or_false] at hs
  subst hs
  exact .inr ⟨[], " x".toList, by unfold Blank; decide, rfl⟩

theorem rule : IsRule "--".toList := ⟨[], [], by unfold Blank; decide, rfl⟩

theorem name_text (s : Str) (h1 : ∃ c ∈ s, ∀ d, c ≠ Specs.digitChar d) (h2 : ∀ c ∈ s, c ≠ ':' ∧ c ≠ '\'' ∧ ¬ White c) :
    Specs.KeyText (.name s) s := .name s h1 h2

theorem value : Specs.ValueWords [.bool true] ["true".toList] :=
  ⟨false, [(.bool true, "true".toList, 0)], [], by decide +kernel, by
    intro x hx
    simp only [List.mem_cons, List.not_mem_nil, or_false] at hx
    subst hx
    exact .inl (by exact .true _ (by decide +kernel)), rfl, by simp, by simp, by decide +kernel⟩

theorem an_entry (w : Str) (hw : Solid w) (h1 : ∃ c ∈ w, ∀ d, c ≠ Specs.digitChar d) (h2 : ∀ c ∈ w, c ≠ ':' ∧ c ≠ '\'' ∧ ¬ White c)
    (h3 : w.filter (· ≠ '\'') = w) (h4 : w.head? ≠ some '#') (h5 : ¬ ['-', '-'] <+: w) :
    IsEntry [.name w] [.bool true] (w ++ " true".toList) :=
  ⟨w, _, ⟨[], [([' '], "true".toList)], [], by simp [Specs.lineText], by unfold Blank; simp, by unfold Blank; simp, hw, rfl, by
      intro p hp
      simp only [List.mem_cons, List.not_mem_nil, or_false] at hp
      subst hp
      exact ⟨by simp, by unfold Blank; decide, by unfold Solid; decide +kernel⟩⟩,
    ⟨⟨[w], .cons (name_text w h1 h2) .nil, by simp, by simpa using h3⟩, h4, h5⟩, value⟩

theorem entry_x : IsEntry [.name "x".toList] [.bool true] "x true".toList :=
  an_entry "x".toList (by unfold Solid; decide +kernel) (by decide +kernel) (by decide +kernel) (by decide +kernel) (by decide +kernel)
    (by decide +kernel)
theorem entry_add : IsEntry [.name "add".toList] [.bool true] "add true".toList :=
  an_entry "add".toList (by unfold Solid; decide +kernel) (by decide +kernel) (by decide +kernel) (by decide +kernel) (by decide +kernel)
    (by decide +kernel)
theorem entry_get : IsEntry [.name "get".toList] [.bool true] "get true".toList :=
  an_entry "get".toList (by unfold Solid; decide +kernel) (by decide +kernel) (by decide +kernel) (by decide +kernel) (by decide +kernel)
    (by decide +kernel)
theorem name_ds : IsName (.name "ds".toList) "ds".toList :=
  ⟨"ds".toList, ⟨[], [], [], by decide +kernel, by unfold Blank; decide, by unfold Blank; decide, by unfold Solid; decide +kernel, rfl,
    by simp⟩, ⟨["ds".toList], .cons (name_text _ (by decide +kernel) (by decide +kernel)) .nil, by simp, by decide +kernel⟩,
    by decide +kernel, by decide +kernel⟩
theorem entry_done : IsEntry [.name "dict_done".toList] [.bool true] "dict_done true".toList :=
  an_entry "dict_done".toList (by unfold Solid; decide +kernel) (by decide +kernel) (by decide +kernel) (by decide +kernel)
    (by decide +kernel) (by decide +kernel)
theorem doc : Doc ["x true".toList] [("x".toList, .value (meaning [.bool true]))] := .attr _ _ _ _ _ entry_x .nil
theorem free : ∀ p ∈ [("x".toList, Content.value (meaning [.bool true]))], ¬ Taken p.1 := by
  intro p hp
  simp only [List.mem_cons, List.not_mem_nil, or_false] at hp
  subst hp; decide

example := C150_document_partial _ _ doc (by simp) free
example := C150_method_found _ _ doc (by simp) free "add" (by decide) []
example := C150_add_taken _ _ doc free _ _ _ _ "x".toList ["# x".toList] ["--".toList] entry_add skips entry_x
example := C150_dict_taken _ _ doc free "dict_done" (Or.inr (Or.inr rfl)) _ _ entry_done "ds".toList _ ["# x".toList] _ _ _ [] _ name_ds
  skips rule (.entry _ _ _ _ _ entry_x .nil) (by simp) (by simp) rule
example := C150_get_taken _ _ doc free _ _ entry_get
example := C150_ds_dict_lost _ _ doc free _ ["# x".toList] _ _ _ _ name_ds skips rule (.entry _ _ _ _ _ entry_x .nil) (by simp) rule
example := C150_ds_dropped ⟨[(nm "ds", .leaf (.bool true))], none, some (nm "p")⟩ ⟨[], some (nm "p", []), some (nm "p")⟩ "--".toList rule
  (by rw [lineOf_rule _ rule]; rfl)
example := (C150_no_file none).2 rfl

end Demo

end SpecNames
end Ade
