import Verif.Lemmas.PopHistory
import Verif.Model.Analysis
import Verif.Props.History

/-!
# Property C41: membership marks follow the population
-/

set_option autoImplicit false

namespace Ade
namespace PopHistory
open History

/-- Proper use: new individuals are storable, differ (in hash) from the other members, and the population
stays smaller than the history's capacity. -/
def Proper (f4 : PyFloat → PyFloat) (s : PH) : Op → Prop
  | .append i ch => (i.sse.isFinite = true → Storable f4 i) ∧ i.key.isSome = true ∧ Chooser ch ∧
      i.key ∉ s.members.map Ind.key ∧ s.members.length + 1 < s.hist.nMax
  | .assign k i ch => (i.sse.isFinite = true → Storable f4 i) ∧ i.key.isSome = true ∧ Chooser ch ∧
      k < s.members.length ∧ i.key ∉ (s.members.eraseIdx k).map Ind.key
  | .record i ch => (i.sse.isFinite = true → Storable f4 i) ∧ Chooser ch
  | .clear => True

/-- States of a population with a new history of capacity `n ≥ 4` under proper use. -/
inductive Reach (f4 : PyFloat → PyFloat) (n : Nat) : PH → Prop
  | init (h4 : 4 ≤ n) : Reach f4 n ⟨[], init n⟩
  | step (s : PH) (op : Op) : Reach f4 n s → Proper f4 s op → Reach f4 n (step f4 s op)

theorem reach_inv (f4 : PyFloat → PyFloat) (hf : IsSingle f4) (n : Nat) (s : PH) (hr : Reach f4 n s) :
    4 ≤ n ∧ ReachNP f4 n s.hist ∧ Coupled f4 s.members s.hist ∧ s.members.length < n := by
  induction hr with
  | init h4 => exact ⟨h4, .init (by omega), coupled_nil f4 _ rfl rfl, by simp; omega⟩
  | step s op _ hp ih =>
    obtain ⟨h4, hr, hc, hl⟩ := ih
    have hrr := reachNP_reach hf hr
    have hnm := reach_nMax hrr.1
    have hg := reach_good hf hrr.1
    refine ⟨h4, ?_⟩
    have hnc : ∀ (h : Hist) i nip ch, ReachNP f4 n h → NoCollision h (.add i nip ch) :=
      fun h i nip ch hh => contiguous_not_collides h.K (reachNP_reach hf hh).2
    cases op with
    | append i ch =>
      obtain ⟨p1, p2, p3, p4, p5⟩ := hp
      have hcard := hc.card_le
      have hleg : Legal f4 s.hist (.add i false ch) := ⟨p1, p3, fun _ => ⟨.inr (by omega), by omega⟩⟩
      refine ⟨.step _ (.add i false ch) hr hleg (by simp), ?_, ?_⟩
      · have := coupled_add f4 hf i s.members s.hist (by omega) hg hc ch hleg (hnc _ _ _ _ hr) p2 p4
        exact this.perm (List.perm_append_comm (l₁ := [i]))
      · simp [PopHistory.step]; omega
    | assign k i ch =>
      obtain ⟨p1, p2, p3, p4, p5⟩ := hp
      have hget : s.members[k]? = some s.members[k] := List.getElem?_eq_getElem p4
      simp only [PopHistory.step, hget]
      have hperm := List.getElem_cons_eraseIdx_perm (l := s.members) p4
      have hc1 := hc.perm hperm.symm
      have hc2 := coupled_leave f4 _ _ _ hg hc1
      have hr2 : ReachNP f4 n (notInPop s.hist s.members[k]) :=
        .step _ (.notInPop s.members[k]) hr trivial (by simp)
      have hrr2 := reachNP_reach hf hr2
      have hnm2 := reach_nMax hrr2.1
      have hcard := hc2.card_le
      have hle : (s.members.eraseIdx k).length + 1 = s.members.length := by
        have := hperm.length_eq; simpa using this
      have hleg : Legal f4 (notInPop s.hist s.members[k]) (.add i false ch) :=
        ⟨p1, p3, fun _ => ⟨.inr (by omega), by omega⟩⟩
      refine ⟨.step _ (.add i false ch) hr2 hleg (by simp), ?_, ?_⟩
      · have := coupled_add f4 hf i _ _ (by omega) (reach_good hf hrr2.1) hc2 ch hleg
          (hnc _ _ _ _ hr2) p2 p5
        exact this.perm (List.set_perm_cons_eraseIdx p4 i).symm
      · simpa using hl
    | record i ch =>
      obtain ⟨p1, p3⟩ := hp
      have hcard := hc.card_le
      have hleg : Legal f4 s.hist (.add i true ch) := ⟨p1, p3, fun _ => ⟨.inr (by omega), by omega⟩⟩
      exact ⟨.step _ (.add i true ch) hr hleg (by simp),
        coupled_record f4 hf i _ _ (by omega) hg hc ch hleg (hnc _ _ _ _ hr), hl⟩
    | clear =>
      refine ⟨.step _ .clear hr trivial (by simp), ?_, by simp [PopHistory.step]; omega⟩
      apply coupled_nil <;> simp [PopHistory.step, History.clear, hg.held]

open Analysis in
/-- C41 (for members with distinct, stable hashes): after any sequence of uses, the records shown as "in
population" are exactly the (float32) records of the current members with a usable score. -/
theorem C41_marks_are_members_partial (f4 : PyFloat → PyFloat) (hf : IsSingle f4) (n : Nat) (s : PH)
    (hr : Reach f4 n s) :
    ((selectRows s.hist.K s.hist.Kp s.hist.Kn .inPop).map s.hist.X).Perm
      ((s.members.filter fun m => m.sse.isFinite).map (stored f4)) := by
  obtain ⟨_, hnp, ⟨_, _, rs, h3, h4, h5, h6, _⟩, _⟩ := reach_inv f4 hf n s hr
  have hg := reach_good hf (reachNP_reach hf hnp).1
  have hrows : (selectRows s.hist.K s.hist.Kp s.hist.Kn .inPop).Perm (rs.map Prod.snd) := by
    refine (List.perm_ext_iff_of_nodup (hg.nodup.filter _) h4).2 ?_
    intro r
    rw [List.mem_filter, decide_eq_true_eq, ← h5]
    exact ⟨fun h => h.2, fun h => ⟨hg.kp r h, h⟩⟩
  refine (hrows.map _).trans ?_
  refine List.Perm.trans (List.Perm.of_eq ?_) (h3.map (stored f4))
  rw [List.map_map, List.map_map]
  apply List.map_congr_left
  intro p hp
  exact h6 p hp

open Analysis in
/-- C41: a member that is replaced is shown as "formerly in population" (until its record is evicted, at the
earliest by the replacing individual). -/
theorem C41_replaced_is_former (f4 : PyFloat → PyFloat) (hf : IsSingle f4) (n : Nat) (s : PH)
    (hr : Reach f4 n s) (k : Nat) (hk : k < s.members.length) (hu : s.members[k].sse.isFinite = true) :
    ∃ r, r ∈ selectRows s.hist.K s.hist.Kp s.hist.Kn .inPop ∧ s.hist.X r = stored f4 s.members[k] ∧
      let h' := notInPop s.hist s.members[k]
      r ∈ selectRows h'.K h'.Kp h'.Kn .former ∧ h'.X r = stored f4 s.members[k] := by
  obtain ⟨_, hnp, ⟨_, hkeys, rs, h3, h4, h5, h6, h7, _⟩, _⟩ := reach_inv f4 hf n s hr
  have hg := reach_good hf (reachNP_reach hf hnp).1
  have hm : s.members[k] ∈ rs.map Prod.fst :=
    h3.mem_iff.2 (List.mem_filter.2 ⟨List.getElem_mem hk, hu⟩)
  obtain ⟨p, hp, hpe⟩ := List.mem_map.1 hm
  obtain ⟨key, hkey⟩ := Option.isSome_iff_exists.1 (hkeys _ (List.getElem_mem hk))
  have hkr := h7 p hp key (by rw [hpe, hkey])
  have hrp : p.2 ∈ s.hist.Kp := (h5 p.2).2 (List.mem_map_of_mem hp)
  have hrK := hg.kp _ hrp
  have hX : s.hist.X p.2 = stored f4 s.members[k] := by rw [h6 p hp, hpe]; rfl
  refine ⟨p.2, by simp [selectRows, hrK, hrp], hX, ?_⟩
  have hn : notInPop s.hist s.members[k] =
      leavePop { s.hist with kr := fun k' => if k' = key then none else s.hist.kr k' } p.2 := by
    unfold notInPop
    rw [if_neg (by simp [hg.held]), hkey]
    simp only [hkr]
  simp only [hn]
  rw [leavePop_eq f4 _ (good_forget f4 _ hg key).toGood0 p.2 hrK]
  refine ⟨?_, hX⟩
  have := hg.disj _ hrp
  simp [selectRows, hrK, this]

/-- C41 fails with duplicate members: two equal members; when both have been replaced one of the old records
is still marked as a member. -/
theorem C41_duplicates_break :
    ∃ ops : List Op, let s := run id ⟨[], init 10⟩ ops
      s.members = [mk 1 1, mk 2 2] ∧ s.hist.Kp.card = 3 :=
  ⟨[.append (mk 5 5) highest, .append (mk 5 5) highest, .assign 0 (mk 1 1) highest,
    .assign 1 (mk 2 2) highest], by decide +kernel⟩

/-- C41 fails for a member whose score was changed in place (blacklisted), which changes its hash: replacing
it leaves the old record marked as a member. -/
theorem C41_changed_score_breaks :
    ∃ (s : PH) (bad : Ind), s = run id ⟨[], init 10⟩ [.append (mk 5 5) highest] ∧
      bad.values = (mk 5 5).values ∧ bad.sse = .pinf ∧
      (step id { s with members := [bad] } (.assign 0 (mk 1 1) highest)).hist.Kp.card = 2 :=
  ⟨_, ⟨.pinf, [.fin 6], some 77⟩, rfl, by decide +kernel, rfl, by decide +kernel⟩

/-- A proper run with appends, replacements of a member, a losing challenger and an unusable member. -/
theorem demo_reach : Reach toy 4 (run toy ⟨[], init 4⟩ [.append (mk 5 1) highest, .append (mk 7 2) highest,
    .assign 0 (mk 3 3) highest, .record (mk 9 4) highest, .assign 1 (mk 2 5) highest]) := by
  have h1 := Reach.init (f4 := toy) (n := 4) (by omega)
  have h2 := h1.step _ (.append (mk 5 1) highest)
    ⟨fun _ => mk_storable _ _ (by norm_num), rfl, highest_chooser, by decide +kernel, by decide +kernel⟩
  have h3 := h2.step _ (.append (mk 7 2) highest)
    ⟨fun _ => mk_storable _ _ (by norm_num), rfl, highest_chooser, by decide +kernel, by decide +kernel⟩
  have h4 := h3.step _ (.assign 0 (mk 3 3) highest)
    ⟨fun _ => mk_storable _ _ (by norm_num), rfl, highest_chooser, by decide +kernel, by decide +kernel⟩
  have h5 := h4.step _ (.record (mk 9 4) highest)
    ⟨fun _ => mk_storable _ _ (by norm_num), highest_chooser⟩
  exact h5.step _ (.assign 1 (mk 2 5) highest)
    ⟨fun _ => mk_storable _ _ (by norm_num), rfl, highest_chooser, by decide +kernel, by decide +kernel⟩

example := C41_marks_are_members_partial toy toy_single 4 _ demo_reach

example := C41_replaced_is_former toy toy_single 4 _ demo_reach 1 (by decide +kernel) (by decide +kernel)

end PopHistory
end Ade
