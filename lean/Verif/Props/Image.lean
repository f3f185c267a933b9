import Verif.Model.Image
import Mathlib.Data.List.Induction
import Mathlib.Order.Basic

/-!
# Property C91: image viewers
-/

set_option autoImplicit false

namespace Ade
namespace Image

theorem next_spec (vs : List Viewer) : ∀ n i,
    match next vs i n with
    | some j => i ≤ j ∧ (∃ v, vs[j]? = some v ∧ v.installed = true) ∧
        ∀ k, i ≤ k → k < j → ∃ v, vs[k]? = some v ∧ v.installed = false
    | none => ∀ k v, i ≤ k → k < i + n → vs[k]? = some v → v.installed = false := by
  intro n
  induction n with
  | zero => intro i; simp only [next]; intro k v h1 h2; omega
  | succ n ih =>
    intro i
    rw [next]
    cases hv : vs[i]? with
    | none =>
      intro k v h1 h2 h3
      have := List.getElem?_eq_none_iff.1 hv
      rw [List.getElem?_eq_none (by omega)] at h3; cases h3
    | some v =>
      dsimp only
      by_cases hi : v.installed = true
      · simp only [hi, if_true]
        exact ⟨Nat.le_refl _, ⟨v, hv, hi⟩, by intro k h1 h2; omega⟩
      · simp only [hi, Bool.false_eq_true, if_false]
        have := ih (i + 1)
        cases hn : next vs (i + 1) n with
        | some j =>
          rw [hn] at this
          obtain ⟨h1, h2, h3⟩ := this
          refine ⟨by omega, h2, ?_⟩
          intro k hk1 hk2
          rcases Nat.lt_or_ge i k with h | h
          · exact h3 k (by omega) hk2
          · obtain rfl : k = i := by omega
            exact ⟨v, hv, by simpa using hi⟩
        | none =>
          rw [hn] at this
          intro k w h1 h2 h3
          rcases Nat.lt_or_ge i k with h | h
          · exact this k w (by omega) (by omega) h3
          · obtain rfl : k = i := by omega
            rw [hv] at h3; cases h3; simpa using hi

/-- The viewers that exist, in order of preference. -/
def available (vs : List Viewer) : List ℕ :=
  (List.range vs.length).filter fun k => (vs[k]?.map Viewer.installed).getD false

/-- The positions from `i` on. -/
theorem available_split (vs : List Viewer) (i : ℕ) (hi : i ≤ vs.length) :
    available vs = (available vs).filter (· < i) ++ (available vs).filter (fun k => i ≤ k) := by
  unfold available
  obtain ⟨m, hm⟩ := Nat.exists_eq_add_of_le hi
  rw [hm, List.range_add, List.filter_append, List.filter_append, List.filter_append]
  have e1 : ((List.range i).filter fun k => (vs[k]?.map Viewer.installed).getD false).filter (· < i) =
      (List.range i).filter fun k => (vs[k]?.map Viewer.installed).getD false := by
    rw [List.filter_eq_self]; intro k hk; have := List.mem_filter.1 hk; simpa using this.1
  have e2 : ((List.range i).filter fun k => (vs[k]?.map Viewer.installed).getD false).filter (fun k => i ≤ k) = [] := by
    rw [List.filter_eq_nil_iff]; intro k hk; have := (List.mem_filter.1 hk).1; simp at this ⊢; exact this
  have e3 : (((List.range m).map (i + ·)).filter fun k => (vs[k]?.map Viewer.installed).getD false).filter (· < i) =
      [] := by
    rw [List.filter_eq_nil_iff]; intro k hk; have := (List.mem_filter.1 hk).1
    simp at this ⊢; obtain ⟨a, -, rfl⟩ := this; omega
  have e4 : (((List.range m).map (i + ·)).filter fun k => (vs[k]?.map Viewer.installed).getD false).filter
      (fun k => i ≤ k) = ((List.range m).map (i + ·)).filter fun k => (vs[k]?.map Viewer.installed).getD false := by
    rw [List.filter_eq_self]; intro k hk; have := (List.mem_filter.1 hk).1
    simp at this ⊢; obtain ⟨a, -, rfl⟩ := this; omega
  rw [e1, e2, e3, e4]; simp

/-- What is true of every state. -/
structure Ok (c : Config) (s : St) : Prop where
  signals : s.signals = 0
  watch : s.watching = true → s.stage = .idle ∧ s.transport = false ∧ s.started = []
  idle : s.stage = .idle → s.started = [] ∧ s.running = [] ∧ s.transport = false
  showing : ∀ j, s.stage = .showing j → s.running = [j] ∧ s.started = (available c.viewers).filter (· ≤ j) ∧
    j < c.viewers.length
  over : s.stage = .over → s.running = [] ∧ s.started <+: available c.viewers

theorem spawnFrom_ok (c : Config) (s : St) (i : ℕ) (hi : i ≤ c.viewers.length) (h0 : s.signals = 0)
    (hs : s.started = (available c.viewers).filter (· < i)) (hr : s.running = []) (hw : s.watching = false) :
    Ok c (spawnFrom c s i) := by
  have hnext := next_spec c.viewers c.viewers.length i
  unfold spawnFrom
  cases hn : next c.viewers i c.viewers.length with
  | some j =>
    rw [hn] at hnext
    obtain ⟨h1, ⟨v, hv, hvi⟩, h3⟩ := hnext
    have hjl : j < c.viewers.length := (List.getElem?_eq_some_iff.1 hv).1
    refine ⟨h0, by simp [hw], by simp, ?_, by simp⟩
    intro j' hj'
    simp only [Stage.showing.injEq] at hj'
    subst hj'
    refine ⟨by simp [hr], ?_, hjl⟩
    show s.started ++ [j] = _
    rw [hs]
    -- those up to `j` are those below `j` and `j`
    have : (available c.viewers).filter (· ≤ j) = (available c.viewers).filter (· < j) ++ [j] := by
      unfold available
      rw [List.filter_filter, List.filter_filter]
      have hsplit : List.range c.viewers.length = List.range j ++ j :: (List.range (c.viewers.length - j - 1)).map (j + 1 + ·) := by
        have : c.viewers.length = j + (1 + (c.viewers.length - j - 1)) := by omega
        conv_lhs => rw [this, List.range_add, List.range_add]
        simp [List.range_succ, Nat.add_assoc]
      rw [hsplit]
      simp only [List.filter_append, List.filter_cons, List.filter_map]
      have ht : (c.viewers[j]?.map Viewer.installed).getD false = true := by rw [hv]; simp [hvi]
      rw [if_pos (by simp [ht]), if_neg (by simp)]
      have z1 : ((fun k => decide (k ≤ j) && (c.viewers[k]?.map Viewer.installed).getD false) ∘ fun x => j + 1 + x) =
          fun _ => false := by funext k; simp; intro; omega
      have z2 : ((fun k => decide (k < j) && (c.viewers[k]?.map Viewer.installed).getD false) ∘ fun x => j + 1 + x) =
          fun _ => false := by funext k; simp; intro; omega
      rw [z1, z2]
      simp only [List.filter_false, List.map_nil, List.append_nil]
      congr 1
      apply List.filter_congr
      intro k hk
      have : k < j := by simpa using hk
      simp [this, Nat.le_of_lt this]
    rw [this]
    congr 1
    apply List.filter_congr
    intro k hk
    have hka : k < c.viewers.length ∧ (c.viewers[k]?.map Viewer.installed).getD false = true := by
      unfold available at hk; simpa using hk
    have : k < i ↔ k < j := by
      constructor
      · intro h; omega
      · intro h
        by_contra hge
        obtain ⟨w, hw1, hw2⟩ := h3 k (by omega) h
        rw [hw1] at hka; simp [hw2] at hka
    simp [this]
  | none =>
    rw [hn] at hnext
    refine ⟨h0, by simp [hw], by simp, by simp, ?_⟩
    intro _
    refine ⟨hr, ?_⟩
    show s.started <+: _
    rw [hs]
    conv_rhs => rw [available_split c.viewers i hi]
    exact List.prefix_append _ _

theorem step_ok (c : Config) (s : St) (h : Ok c s) (e : Event) : Ok c (step c s e) := by
  cases e with
  | change isfile alive =>
    simp only [step]
    by_cases hw : s.watching = true
    · obtain ⟨w1, w2, w3⟩ := h.watch hw
      rw [if_pos hw]
      simp only [w2, Bool.false_eq_true, if_false]
      by_cases hc : (isfile && !processRunning s alive) = true
      · rw [if_pos hc]
        have hok := spawnFrom_ok c { s with watching := false } 0 (by omega) h.signals
          (by simp [w3]) (h.idle w1).2.1 rfl
        have heq : { spawnFrom c s 0 with watching := false } = spawnFrom c { s with watching := false } 0 := by
          unfold spawnFrom; cases next c.viewers 0 c.viewers.length <;> rfl
        rw [heq]; exact hok
      · rw [if_neg hc]; exact h
    · rw [if_neg hw]; exact h
  | ended stderr =>
    simp only [step]
    cases hs : s.stage with
    | idle => exact h
    | over => exact h
    | showing j =>
      dsimp only
      obtain ⟨h1, h2, h3⟩ := h.showing j hs
      have hw : s.watching = false := by
        by_contra hw
        have := (h.watch (by simpa using hw)).1
        rw [hs] at this; cases this
      cases stderr with
      | true =>
        rw [if_pos rfl]
        refine spawnFrom_ok c _ (j + 1) (by omega) ?_ ?_ ?_ ?_
        · exact h.signals
        · show s.started = _
          rw [h2]; apply List.filter_congr; intro k _; simp [Nat.lt_succ_iff]
        · simp [h1]
        · exact hw
      | false =>
        simp only [Bool.false_eq_true, if_false]
        refine ⟨h.signals, by simp [hw], by simp, by simp, ?_⟩
        intro _
        refine ⟨by simp [h1], ?_⟩
        show s.started <+: _
        rw [h2]
        have : (available c.viewers).filter (· ≤ j) = (available c.viewers).filter (· < j + 1) := by
          apply List.filter_congr; intro k _; simp [Nat.lt_succ_iff]
        rw [this]
        conv_rhs => rw [available_split c.viewers (j + 1) (by omega)]
        exact List.prefix_append _ _
  | shutdown => exact ⟨h.signals, by simp [step], h.idle, h.showing, h.over⟩

theorem run_ok (c : Config) (pf : Option PidText) (es : List Event) : Ok c (run c (start pf) es) := by
  induction es using List.reverseRecOn with
  | nil => exact ⟨rfl, fun _ => ⟨rfl, rfl, rfl⟩, fun _ => ⟨rfl, rfl, rfl⟩, by simp [run, start], by simp [run, start]⟩
  | append_singleton es e ih =>
    rw [run, List.foldl_append, List.foldl_cons, List.foldl_nil]
    exact step_ok c _ ih e

/-- C91: whatever happens, at most one viewer started by the object is running, and the viewers started so far are the
first ones available, in order of preference, each at most once. -/
theorem C91_one_at_a_time (c : Config) (pf : Option PidText) (es : List Event) :
    (run c (start pf) es).running.length ≤ 1 ∧ (run c (start pf) es).started <+: available c.viewers := by
  have h := run_ok c pf es
  cases hs : (run c (start pf) es).stage with
  | idle => obtain ⟨h1, h2, -⟩ := h.idle hs; simp [h1, h2]
  | over => obtain ⟨h1, h2⟩ := h.over hs; exact ⟨by simp [h1], h2⟩
  | showing j =>
    obtain ⟨h1, h2, h3⟩ := h.showing j hs
    refine ⟨by simp [h1], ?_⟩
    rw [h2]
    have : (available c.viewers).filter (· ≤ j) = (available c.viewers).filter (· < j + 1) := by
      apply List.filter_congr; intro k _; simp [Nat.lt_succ_iff]
    rw [this]
    conv_rhs => rw [available_split c.viewers (j + 1) (by omega)]
    exact List.prefix_append _ _

/-- C91: no viewer is started while the process noted in the PID file, for example one left over from an earlier run, is
alive. -/
theorem C91_no_second_viewer (c : Config) (s : St) (isfile : Bool) (alive : ℕ → Bool) (pid : ℕ)
    (hp : s.pidFile = some (.number pid)) (ha : alive pid = true) :
    (step c s (.change isfile alive)).started = s.started := by
  simp only [step, processRunning, hp, ha]
  cases s.watching <;> cases s.transport <;> cases isfile <;> simp

/-- C91: at the first change after which the image file exists, the first available viewer is started, unless an earlier
one is alive. -/
theorem C91_starts_viewer (c : Config) (pf : Option PidText) (alive : ℕ → Bool)
    (hp : ∀ pid, pf = some (.number pid) → alive pid = false) (j : ℕ) (hj : (available c.viewers).head? = some j) :
    (step c (start pf) (.change true alive)).running = [j] ∧
      (step c (start pf) (.change true alive)).pidFile = some (.number (c.pids 0)) := by
  have hr : processRunning (start pf) alive = false := by
    unfold processRunning start
    cases pf with
    | none => rfl
    | some t => cases t with
      | other => rfl
      | number n => exact hp n rfl
  have hstep : step c (start pf) (.change true alive) = { spawnFrom c (start pf) 0 with watching := false } := by
    simp [step, start] at hr ⊢
    simp [hr]
  have hnext := next_spec c.viewers c.viewers.length 0
  have hjm : j ∈ available c.viewers := List.mem_of_head? hj
  have hjv : j < c.viewers.length ∧ (c.viewers[j]?.map Viewer.installed).getD false = true := by
    unfold available at hjm; simpa using hjm
  rw [hstep]
  unfold spawnFrom
  cases hn : next c.viewers 0 c.viewers.length with
  | none =>
    rw [hn] at hnext
    have := hnext j c.viewers[j] (by omega) (by omega) (List.getElem?_eq_getElem hjv.1)
    simp [List.getElem?_eq_getElem hjv.1, this] at hjv
  | some i =>
    rw [hn] at hnext
    obtain ⟨-, ⟨v, hv, hvi⟩, h3⟩ := hnext
    have hij : i = j := by
      have him : i ∈ available c.viewers := by
        unfold available
        have := (List.getElem?_eq_some_iff.1 hv).1
        rw [List.mem_filter, hv]
        simp [this, hvi]
      have hsorted : (available c.viewers).Pairwise (· < ·) := by
        unfold available; exact List.Pairwise.filter _ List.pairwise_lt_range
      have hji : j ≤ i := by
        cases hav : available c.viewers with
        | nil => rw [hav] at hj; cases hj
        | cons a t =>
          rw [hav] at hj him hsorted
          simp at hj; subst hj
          rcases List.mem_cons.1 him with h | h
          · omega
          · exact Nat.le_of_lt (List.rel_of_pairwise_cons hsorted h)
      by_contra hne
      obtain ⟨w, hw1, hw2⟩ := h3 j (by omega) (by omega)
      rw [hw1] at hjv; simp [hw2] at hjv
    subst hij
    simp [start]

/-! ### Messages -/

theorem available_sorted (vs : List Viewer) : (available vs).Pairwise (· < ·) := by
  unfold available; exact List.Pairwise.filter _ List.pairwise_lt_range

theorem mem_available (vs : List Viewer) (k : ℕ) :
    k ∈ available vs ↔ ∃ v, vs[k]? = some v ∧ v.installed = true := by
  unfold available
  rw [List.mem_filter, List.mem_range]
  constructor
  · rintro ⟨h1, h2⟩
    rw [List.getElem?_eq_getElem h1] at h2 ⊢
    exact ⟨_, rfl, by simpa using h2⟩
  · rintro ⟨v, h1, h2⟩
    exact ⟨(List.getElem?_eq_some_iff.1 h1).1, by rw [h1]; simpa using h2⟩

/-- The next viewer tried is the next available one. -/
theorem next_take (vs : List Viewer) (i m : ℕ) (hm : m ≤ (available vs).length)
    (hlow : ∀ k ∈ (available vs).take m, k < i) (hhigh : ∀ k ∈ (available vs).drop m, i ≤ k) :
    next vs i vs.length = (available vs)[m]? := by
  have h := next_spec vs vs.length i
  cases hn : next vs i vs.length with
  | none =>
    rw [hn] at h
    symm
    rw [List.getElem?_eq_none_iff]
    by_contra hlt
    replace hlt := Nat.lt_of_not_le hlt
    have hin : (available vs)[m] ∈ available vs := List.getElem_mem _
    obtain ⟨v, hv, hvi⟩ := (mem_available vs _).1 hin
    have hge : i ≤ (available vs)[m] := hhigh _ (List.mem_drop_iff_getElem.2 ⟨0, by simpa using hlt, by simp⟩)
    have hlen := (List.getElem?_eq_some_iff.1 hv).1
    have := h _ v hge (by omega) hv
    rw [hvi] at this; cases this
  | some j =>
    rw [hn] at h
    obtain ⟨h1, h2, h3⟩ := h
    have hj : j ∈ available vs := (mem_available vs j).2 h2
    have hjd : j ∈ (available vs).drop m := by
      have : j ∈ (available vs).take m ++ (available vs).drop m := by rw [List.take_append_drop]; exact hj
      rcases List.mem_append.1 this with h | h
      · have := hlow j h; omega
      · exact h
    have hlt : m < (available vs).length := by
      by_contra hge
      rw [List.drop_eq_nil_of_le (by omega)] at hjd
      cases hjd
    have hin : (available vs)[m] ∈ available vs := List.getElem_mem _
    have hge : i ≤ (available vs)[m] := hhigh _ (List.mem_drop_iff_getElem.2 ⟨0, by simpa using hlt, by simp⟩)
    rw [List.getElem?_eq_getElem hlt]
    congr 1
    obtain ⟨q, hq, hjq⟩ := List.mem_drop_iff_getElem.1 hjd
    have hle : (available vs)[m] ≤ j := by
      rw [← hjq]
      rcases Nat.eq_zero_or_pos q with rfl | hq0
      · simp
      · exact Nat.le_of_lt (List.pairwise_iff_getElem.1 (available_sorted vs) _ _ _ _ (by omega))
    rcases Nat.lt_or_ge (available vs)[m] j with hc | hc
    · obtain ⟨w, hw1, hw2⟩ := h3 _ hge hc
      obtain ⟨v, hv, hvi⟩ := (mem_available vs _).1 hin
      rw [hw1] at hv; cases hv; rw [hw2] at hvi; cases hvi
    · omega

/-- C91: when every viewer started ends with an error message, each one available is tried in turn; each failure and,
at the end, the lack of a viewer is reported, unless complaints were turned off. -/
theorem C91_messages (c : Config) (pf : Option PidText) (alive : ℕ → Bool)
    (hp : ∀ pid, pf = some (.number pid) → alive pid = false) (m : ℕ) (hm : m ≤ (available c.viewers).length) :
    let s := run c (start pf) (.change true alive :: List.replicate m (.ended true))
    s.started = (available c.viewers).take (m + 1) ∧ s.running = ((available c.viewers)[m]?).toList ∧
      s.msgs = if c.noComplain then [] else
        ((available c.viewers).take m).map .launchError ++ if m = (available c.viewers).length then [.noViewer] else [] := by
  have hr : processRunning (start pf) alive = false := by
    unfold processRunning start
    cases pf with
    | none => rfl
    | some t => cases t with
      | other => rfl
      | number n => exact hp n rfl
  have hstep : step c (start pf) (.change true alive) = { spawnFrom c (start pf) 0 with watching := false } := by
    simp [step, start] at hr ⊢
    simp [hr]
  suffices H : ∀ s, s = run c (start pf) (.change true alive :: List.replicate m (.ended true)) →
      (s.started = (available c.viewers).take (m + 1) ∧ s.running = ((available c.viewers)[m]?).toList ∧
      s.msgs = if c.noComplain then [] else
        ((available c.viewers).take m).map .launchError ++
          if m = (available c.viewers).length then [.noViewer] else []) ∧
      s.stage = (((available c.viewers)[m]?).map Stage.showing).getD .over from (H _ rfl).1
  induction m with
  | zero =>
    intro s hs
    have hn := next_take c.viewers 0 0 (by omega) (by simp) (by simp)
    rw [run, List.replicate_zero, List.foldl_cons, List.foldl_nil, hstep] at hs
    unfold spawnFrom at hs
    rw [hn] at hs
    cases hav : (available c.viewers)[0]? with
    | none =>
      have hnil : available c.viewers = [] := by
        rw [List.getElem?_eq_none_iff] at hav; exact List.length_eq_zero_iff.1 (by omega)
      rw [hav] at hs
      subst hs
      simp [hnil, start]
    | some j =>
      rw [hav] at hs
      cases hl : available c.viewers with
      | nil => rw [hl] at hav; cases hav
      | cons a t =>
        rw [hl] at hav
        simp only [List.getElem?_cons_zero, Option.some.injEq] at hav
        subst hav hs
        simp [start]
  | succ m ih =>
    intro s hs
    have hlt : m < (available c.viewers).length := by omega
    obtain ⟨⟨h1, h2, h3⟩, h4⟩ := ih (by omega) _ rfl
    have hs' : s = step c (run c (start pf) (.change true alive :: List.replicate m (.ended true))) (.ended true) := by
      rw [hs, run, List.replicate_succ', ← List.cons_append, List.foldl_append]; rfl
    generalize run c (start pf) (.change true alive :: List.replicate m (.ended true)) = r at h1 h2 h3 h4 hs'
    rw [List.getElem?_eq_getElem hlt] at h2 h4
    simp only [Option.toList_some] at h2
    simp only [Option.map_some, Option.getD_some] at h4
    rw [if_neg (show ¬ m = (available c.viewers).length by omega), List.append_nil] at h3
    have hn := next_take c.viewers ((available c.viewers)[m] + 1) (m + 1) hm
      (by
        intro k hk
        obtain ⟨q, hq, rfl⟩ := List.mem_take_iff_getElem.1 hk
        rcases Nat.lt_or_ge q m with h | h
        · have := List.pairwise_iff_getElem.1 (available_sorted c.viewers) q m (by omega) hlt h
          omega
        · obtain rfl : q = m := by omega
          omega)
      (by
        intro k hk
        obtain ⟨q, hq, rfl⟩ := List.mem_drop_iff_getElem.1 hk
        exact List.pairwise_iff_getElem.1 (available_sorted c.viewers) m (m + 1 + q) hlt (by omega) (by omega))
    simp only [step, h4, if_true] at hs'
    unfold spawnFrom at hs'
    rw [hn] at hs'
    rcases Nat.lt_or_ge (m + 1) (available c.viewers).length with hl | hl
    · rw [List.getElem?_eq_getElem hl] at hs' ⊢
      dsimp only at hs'
      subst hs'
      refine ⟨⟨?_, ?_, ?_⟩, rfl⟩
      · show r.started ++ [_] = _
        rw [h1, List.take_add_one (i := m + 1), List.getElem?_eq_getElem hl]; rfl
      · simp [h2]
      · dsimp only
        rw [h3, if_neg (show ¬ m + 1 = (available c.viewers).length by omega), List.take_add_one, List.getElem?_eq_getElem hlt]
        by_cases hc : c.noComplain = true <;>
          simp only [hc, Bool.false_eq_true, if_true, if_false, List.map_append, Option.toList_some, List.map_cons,
            List.map_nil, List.append_nil]
    · rw [List.getElem?_eq_none hl] at hs' ⊢
      dsimp only at hs'
      subst hs'
      refine ⟨⟨?_, ?_, ?_⟩, rfl⟩
      · show r.started = _
        rw [h1, List.take_of_length_le hl, List.take_of_length_le (by omega)]
      · simp [h2]
      · dsimp only
        rw [h3, if_pos (show m + 1 = (available c.viewers).length by omega), List.take_add_one, List.getElem?_eq_getElem hlt]
        by_cases hc : c.noComplain = true <;>
          simp only [hc, Bool.false_eq_true, if_true, if_false, List.map_append, Option.toList_some, List.map_cons,
            List.map_nil, List.append_assoc]

/-- C91: with complaints turned off there are no messages, whatever happens. -/
theorem C91_no_complaints (c : Config) (hc : c.noComplain = true) (pf : Option PidText) (es : List Event) :
    (run c (start pf) es).msgs = [] := by
  have hsp : ∀ s i, (spawnFrom c s i).msgs = s.msgs := by
    intro s i
    unfold spawnFrom
    cases next c.viewers i c.viewers.length <;> simp [hc]
  induction es using List.reverseRecOn with
  | nil => rfl
  | append_singleton es e ih =>
    rw [run, List.foldl_append, List.foldl_cons, List.foldl_nil]
    rw [run] at ih
    generalize es.foldl (step c) (start pf) = s at ih ⊢
    cases e with
    | change isfile alive =>
      simp only [step]
      split
      · split
        · split <;> exact ih
        · split
          · exact (hsp s 0).trans ih
          · exact ih
      · exact ih
    | ended stderr =>
      simp only [step]
      cases s.stage with
      | idle => exact ih
      | over => exact ih
      | showing j =>
        dsimp only
        split
        · rw [hsp]; simpa [hc] using ih
        · exact ih
    | shutdown => exact ih

/-- C91 is not what the code does when the image file is removed: a viewer is never told to terminate, whatever
happens. -/
theorem C91_never_terminated (c : Config) (pf : Option PidText) (es : List Event) :
    (run c (start pf) es).signals = 0 := (run_ok c pf es).signals

/-- C91 is not what the code does when the viewer has been closed: after a viewer was started, no change of the file
starts one again (only an error message of a viewer makes the next one be tried). -/
theorem C91_not_restarted (c : Config) (pf : Option PidText) (es : List Event) (isfile : Bool) (alive : ℕ → Bool)
    (h : (run c (start pf) es).started ≠ []) :
    step c (run c (start pf) es) (.change isfile alive) = run c (start pf) es := by
  have hok := run_ok c pf es
  have hw : (run c (start pf) es).watching = false := by
    by_contra hw
    exact h (hok.watch (by simpa using hw)).2.2
  simp [step, hw]

theorem fill_nofield (name : List Char) : ∀ a, hasField a = false → fill name a = a := by
  intro a
  induction a with
  | nil => intro _; rfl
  | cons x t ih =>
    cases t with
    | nil => intro _; rfl
    | cons y t =>
      intro h
      simp only [hasField, Bool.or_eq_false_iff, Bool.and_eq_false_iff, beq_eq_false_iff_ne] at h
      have : ¬ (x = '{' ∧ y = '}') := by
        rintro ⟨rfl, rfl⟩; rcases h.1 with h | h <;> exact h rfl
      rw [fill, if_neg this, ih h.2]

/-- C91: the viewer gets the options that contain `{}`, with the name of the image file in that place, and the path of the
image file.  All other options are silently left out: none of the options `--disable-scaling` of pqiv and `-Teit` of
qiv has ever an effect. -/
theorem C91_arguments (base name path : List Char) :
    arguments base name path ["--disable-scaling".toList, "--window-title={}".toList] =
      [base, "--window-title=".toList ++ name, path] ∧
    arguments base name path ["-Teit".toList] = [base, path] ∧
    ∀ opts, (arguments base name path opts).head? = some base ∧
      (arguments base name path opts).getLast? = some path ∧
      (arguments base name path opts).length = 2 + (opts.filter hasField).length := by
  have f1 : hasField "--disable-scaling".toList = false := by decide +kernel
  have f2 : hasField "--window-title={}".toList = true := by decide +kernel
  have f3 : hasField "-Teit".toList = false := by decide +kernel
  refine ⟨?_, ?_, ?_⟩
  · simp only [arguments, List.filter_cons, f1, f2, List.filter_nil, Bool.false_eq_true, if_false, if_true, List.map_cons,
      List.map_nil]
    have : fill name "--window-title={}".toList = "--window-title=".toList ++ name := by
      show fill name ['-', '-', 'w', 'i', 'n', 'd', 'o', 'w', '-', 't', 'i', 't', 'l', 'e', '=', '{', '}'] =
        ['-', '-', 'w', 'i', 'n', 'd', 'o', 'w', '-', 't', 'i', 't', 'l', 'e', '='] ++ name
      simp [fill]
    rw [this]; rfl
  · simp only [arguments, List.filter_cons, f3, List.filter_nil, Bool.false_eq_true, if_false, List.map_nil]
    rfl
  · intro opts
    refine ⟨rfl, ?_, ?_⟩
    · unfold arguments; rw [List.getLast?_append]; rfl
    · simp only [arguments, List.length_append, List.length_cons, List.length_map, List.length_nil]; omega

theorem intercalate_cons_ne {α : Type} (sep p : List α) {ps : List (List α)} (h : ps ≠ []) :
    sep.intercalate (p :: ps) = p ++ sep ++ sep.intercalate ps := by
  obtain ⟨q, qs, rfl⟩ := List.exists_cons_of_ne_nil h
  simp [List.intercalate]

theorem intercalate_cons_head {α : Type} (sep p : List α) (a : α) (ps : List (List α)) :
    sep.intercalate ((a :: p) :: ps) = a :: sep.intercalate (p :: ps) := by
  cases ps with
  | nil => simp [List.intercalate]
  | cons q qs => simp [List.intercalate]

theorem pieces_of (name : List Char) : ∀ o : List Char, ∃ pieces : List (List Char), pieces ≠ [] ∧
    (∀ p ∈ pieces, ¬ ['{', '}'] <:+: p) ∧ o = ['{', '}'].intercalate pieces ∧
    fill name o = name.intercalate pieces ∧ hasField o = decide (pieces.length ≠ 1) := by
  intro o
  induction o using fill.induct with
  | case1 => exact ⟨[[]], by simp, by simp, by simp [List.intercalate], by simp [fill, List.intercalate], by simp [hasField]⟩
  | case2 a =>
    refine ⟨[[a]], by simp, ?_, by simp [List.intercalate], by simp [fill, List.intercalate], by simp [hasField]⟩
    intro p hp hi
    rw [List.mem_singleton.1 hp] at hi
    have := hi.length_le
    simp at this
  | case3 a b t h ih =>
    obtain ⟨ps, h1, h2, h3, h4, h5⟩ := ih
    have hl : ps.length ≠ 0 := by simpa using h1
    refine ⟨[] :: ps, by simp, ?_, ?_, ?_, ?_⟩
    · intro p hp
      rcases List.mem_cons.1 hp with rfl | hp
      · simp
      · exact h2 p hp
    · rw [intercalate_cons_ne _ _ h1, ← h3, h.1, h.2]; rfl
    · rw [intercalate_cons_ne _ _ h1, ← h4, fill, if_pos h]; rfl
    · simp [hasField, h.1, h.2, h1]
  | case4 a b t h ih =>
    obtain ⟨ps, h1, h2, h3, h4, h5⟩ := ih
    obtain ⟨p, ps, rfl⟩ := List.exists_cons_of_ne_nil h1
    refine ⟨(a :: p) :: ps, by simp, ?_, ?_, ?_, ?_⟩
    · intro q hq
      rcases List.mem_cons.1 hq with rfl | hq
      · intro hi
        rcases List.infix_cons_iff.1 hi with hi | hi
        · rw [List.cons_prefix_cons] at hi
          obtain ⟨ha, hj⟩ := hi
          cases p with
          | nil => simp at hj
          | cons x p =>
            rw [List.cons_prefix_cons] at hj
            rw [intercalate_cons_head, List.cons.injEq] at h3
            exact h ⟨ha.symm, h3.1.trans hj.1.symm⟩
        · exact h2 p (by simp) hi
      · exact h2 q (by simp [hq])
    · rw [intercalate_cons_head, ← h3]
    · rw [intercalate_cons_head, ← h4, fill, if_neg h]
    · have : (a == '{' && b == '}') = false := by
        rw [Bool.eq_false_iff]; intro hc; exact h (by simpa using hc)
      rw [hasField, this, Bool.false_or, h5]; rfl

/-- C91: of one option, the text between the places `{}` goes to the viewer with the name of the image file in these
places; an option without such a place does not go to the viewer. -/
theorem C91_option (base name path o : List Char) : ∃ pieces : List (List Char), pieces ≠ [] ∧
    (∀ p ∈ pieces, ¬ ['{', '}'] <:+: p) ∧ o = ['{', '}'].intercalate pieces ∧
    arguments base name path [o] =
      if pieces.length = 1 then [base, path] else [base, name.intercalate pieces, path] := by
  obtain ⟨ps, h1, h2, h3, h4, h5⟩ := pieces_of name o
  refine ⟨ps, h1, h2, h3, ?_⟩
  by_cases hl : ps.length = 1
  · simp [arguments, h5, hl]
  · simp [arguments, h5, hl, h4]

/-- C91: several options are treated one by one, in their order. -/
theorem C91_options (base name path : List Char) (opts : List (List Char)) :
    arguments base name path opts =
      base :: (opts.flatMap fun o => (arguments base name path [o]).tail.dropLast) ++ [path] := by
  have : (opts.filter hasField).map (fill name) =
      opts.flatMap fun o => (arguments base name path [o]).tail.dropLast := by
    induction opts with
    | nil => rfl
    | cons o os ih =>
      rw [List.flatMap_cons, ← ih]
      cases ho : hasField o <;> simp [arguments, ho]
  rw [← this]; rfl

/-- Two viewers of which the first is missing; the image appears, is changed, and the viewer is closed. -/
example : (run ⟨[⟨"pqiv", [], false⟩, ⟨"qiv", [], true⟩], false, fun k => 100 + k⟩ (start none)
      [.change false (fun _ => false), .change true (fun _ => false), .change true (fun p => p == 100)]).running = [1] ∧
    (available [⟨"pqiv", [], false⟩, ⟨"qiv", [], true⟩]).head? = some 1 := by decide +kernel

/-- The first of three viewers is missing. -/
def demoConfig : Config := ⟨[⟨"pqiv", [], false⟩, ⟨"qiv", [], true⟩, ⟨"eog", [], true⟩], false, fun k => 100 + k⟩

example := C91_no_second_viewer demoConfig (start (some (.number 77))) true (fun p => p == 77) 77 rfl rfl

example := C91_starts_viewer demoConfig (some (.number 77)) (fun _ => false) (fun _ _ => rfl) 1 (by decide)

example := C91_messages demoConfig (some (.number 77)) (fun _ => false) (fun _ _ => rfl) 2 (by decide)

example := C91_no_complaints { demoConfig with noComplain := true } rfl none [.change true (fun _ => false), .ended true]

example := C91_not_restarted demoConfig none [.change true (fun _ => false), .ended true] true (fun _ => false)
  (by decide)

end Image
end Ade
