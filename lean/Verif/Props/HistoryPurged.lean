import Verif.Props.History

/-!
# What purging the population does to later additions, and what holds without it

`C37`, `C38`, `C42` are stated in `Verif.Props.History` for states that never met a colliding row
configuration.  Here they are stated for the states reached without purging the population, where no such
configuration occurs, and it is shown that they fail otherwise.  The counter of `C40` needs neither.
-/

set_option autoImplicit false

namespace Ade
namespace History
open ClosestPair

theorem nopurge_free {f4 : PyFloat → PyFloat} (hf : IsSingle f4) {n : Nat} {h : Hist}
    (hr : ReachNP f4 n h) (op : Op) : NoCollision h op := by
  have hc := (reachNP_reach hf hr).2
  cases op <;> simp only [NoCollision]
  exact contiguous_not_collides h.K hc

/-! ## C37 -/

/-- C37: without purging of the population, an addition keeps all records and adds exactly the new one if the
history is not full, and if it is full replaces exactly one of the others, never one of a member. -/
theorem C37_add_nopurge (f4 : PyFloat → PyFloat) (hf : IsSingle f4) (n : Nat) (h : Hist)
    (hr : ReachNP f4 n h) (i : Ind) (nip : Bool) (ch : Finset Nat → Option Nat)
    (hl : Legal f4 h (.add i nip ch)) (hi : i.sse.isFinite = true) :
    ((records h).length < n ∧ (records (add f4 h i nip ch).1).Perm (stored f4 i :: records h)) ∨
    ((records h).length = n ∧ ∃ v rest, v ∈ h.K ∧ v ∉ h.Kp ∧ (records h).Perm (h.X v :: rest) ∧
      (records (add f4 h i nip ch).1).Perm (stored f4 i :: rest)) := by
  have hR := (reachNP_reach hf hr).1
  have hc := nopurge_free hf hr (.add i nip ch)
  rcases Nat.lt_or_ge (records h).length n with hlt | hge
  · exact .inl ⟨hlt, C37_add_not_full f4 hf n h hR i nip ch hl hc hi hlt⟩
  · have hb := (C36_bounded_sorted_nopurge f4 hf n h hr).1
    have he : (records h).length = n := by omega
    obtain ⟨v, rest, _, h1, h2, h3, h4⟩ := C37_add_full f4 hf n h hR i nip ch hl hc hi he
    exact .inr ⟨he, v, rest, h1, h2, h3, h4⟩

/-- C37 fails after purging the population: an addition to a history that is far from full loses the record
that was in the row it takes. -/
theorem C37_lost_after_purge :
    ∃ ops : List Op, (∀ op ∈ ops, op = .purgePop ∨ Normal id op) ∧
      (records (run id (init 6) ops)).length < 6 ∧
      ∃ r ∈ records (run id (init 6) ops),
        r ∉ records (add id (run id (init 6) ops) (mk 4 4) true highest).1 := by
  have hst : ∀ s k, Storable id (mk s k) := by
    intro s k; exact ⟨by simp [Row.finite, stored, mk, PyFloat.isFinite], rfl⟩
  refine ⟨[.add (mk 1 1) true highest, .add (mk 2 2) false highest, .add (mk 3 3) true highest, .purgePop],
    by simp [Normal, hst, highest_chooser], by decide +kernel, rowOf id (mk 3 3), by decide +kernel,
    by decide +kernel⟩

/-! ## C38 -/

/-- C38: without purging of the population, no operation but a clear removes or alters the record of a member;
and an addition leaves it a member. -/
theorem C38_members_kept_nopurge (f4 : PyFloat → PyFloat) (hf : IsSingle f4) (n : Nat) (h : Hist)
    (hr : ReachNP f4 n h) (op : Op) (hl : Legal f4 h op) (hop : op ≠ .purgePop ∧ op ≠ .clear) (r : Nat)
    (hm : r ∈ h.Kp) :
    r ∈ (step f4 h op).K ∧ (step f4 h op).X r = h.X r ∧
      (∀ i nip ch, op = .add i nip ch → r ∈ (step f4 h op).Kp) := by
  have hR := (reachNP_reach hf hr).1
  have hc := nopurge_free hf hr op
  have h1 := C38_members_removed_only_by_purge_or_clear f4 hf n h hR op hl hc hop r hm
  refine ⟨h1.1, h1.2, ?_⟩
  rintro i nip ch rfl
  exact (C38_members_kept_by_add f4 hf n h hR i nip ch hl hc r hm).2.1

/-- The operations of the witness: one of three records is a member and is purged; then members are added. -/
def overwriteOps : List Op :=
  [.add (mk 1 1) true highest, .add (mk 2 2) false highest, .add (mk 3 3) true highest, .purgePop,
   .add (mk 4 4) false highest, .add (mk 5 5) false highest, .add (mk 6 6) false highest]

/-- C38 fails in general: some time after the population was purged, adding a member to a history that is not
full overwrites the record of a current member, which no longer is in the history though the member has not
left the population. -/
theorem C38_member_overwritten_after_purge :
    (∀ op ∈ overwriteOps, op = .purgePop ∨ Normal id op) ∧
    ∃ r ∈ (run id (init 6) overwriteOps).Kp, (run id (init 6) overwriteOps).K.length < 6 ∧
      (run id (init 6) overwriteOps).X r ∈ records (run id (init 6) overwriteOps) ∧
      (run id (init 6) overwriteOps).X r ∉
        records (add id (run id (init 6) overwriteOps) (mk 7 7) false highest).1 := by
  have hst : ∀ s k, Storable id (mk s k) := by
    intro s k; exact ⟨by simp [Row.finite, stored, mk, PyFloat.isFinite], rfl⟩
  refine ⟨by simp [overwriteOps, Normal, hst, highest_chooser], 3, by decide +kernel, by decide +kernel,
    by decide +kernel, by decide +kernel⟩

/-! ## C40 -/

/-- No addition of the sequence fails: each reports the row used, or that nothing was added. -/
def NoneFails (f4 : PyFloat → PyFloat) : Hist → List Op → Prop
  | _, [] => True
  | h, op :: ops =>
    (∀ i nip ch, op = .add i nip ch → (add f4 h i nip ch).2 ≠ .error) ∧ NoneFails f4 (step f4 h op) ops

theorem leavePop_same (h : Hist) (r : Nat) :
    (leavePop h r).nTotal = h.nTotal ∧ (leavePop h r).held = h.held := by
  unfold leavePop
  dsimp only
  split
  · split <;> exact ⟨rfl, rfl⟩
  · exact ⟨rfl, rfl⟩

theorem finishAdd_counts (f4 : PyFloat → PyFloat) (h : Hist) (i : Ind) (nip : Bool) (k r : Nat)
    (hne : (finishAdd f4 h i nip k r).2 ≠ .error) :
    (finishAdd f4 h i nip k r).1.nTotal = h.nTotal + 1 ∧ (finishAdd f4 h i nip k r).1.held = h.held := by
  have hw : (writeRecord f4 h i nip k r).2 = true →
      (writeRecord f4 h i nip k r).1.nTotal = h.nTotal + 1 ∧
        (writeRecord f4 h i nip k r).1.held = h.held := by
    unfold writeRecord
    split
    · cases nip
      · simp only [Bool.false_eq_true, if_false]; split <;> simp
      · simp only [if_true]; split <;> simp
    · simp
  unfold finishAdd at hne ⊢
  split
  · rename_i heq; rw [heq] at hw; exact hw rfl
  · rename_i heq; rw [heq] at hne; exact absurd rfl hne

theorem placeAndFinish_counts (f4 : PyFloat → PyFloat) (h : Hist) (i : Ind) (nip : Bool) (N : Nat)
    (hne : (placeAndFinish f4 h i nip N).2 ≠ .error) :
    (placeAndFinish f4 h i nip N).1.nTotal = h.nTotal + 1 ∧
      (placeAndFinish f4 h i nip N).1.held = h.held := by
  unfold placeAndFinish at hne ⊢
  split
  · rename_i heq; rw [heq] at hne; exact absurd rfl hne
  · rename_i heq; rw [heq] at hne; exact finishAdd_counts f4 h i nip _ _ hne

theorem add_counts (f4 : PyFloat → PyFloat) (h : Hist) (hh : h.held = false) (i : Ind) (nip : Bool)
    (ch : Finset Nat → Option Nat) (hne : (add f4 h i nip ch).2 ≠ .error) :
    (add f4 h i nip ch).1.nTotal = (if i.sse.isFinite then h.nTotal + 1 else h.nTotal) ∧
      (add f4 h i nip ch).1.held = false := by
  cases hi : i.sse.isFinite with
  | false => rw [add_skipped f4 h i nip ch hi]; simp [hh]
  | true =>
    unfold add at hne ⊢
    rw [if_pos hi, if_neg (by simp [hh])] at hne ⊢
    dsimp only at hne ⊢
    simp only [if_true]
    split_ifs at hne ⊢ with h0 h1
    · have := finishAdd_counts f4 h i nip 0 0 hne
      exact ⟨this.1, this.2.trans hh⟩
    · have := placeAndFinish_counts f4 h i nip _ hne
      exact ⟨this.1, this.2.trans hh⟩
    · split
      · rename_i heq; rw [heq] at hne; exact absurd rfl hne
      · rename_i v heq
        rw [heq] at hne
        dsimp only at hne
        split
        · rename_i hp; rw [hp] at hne; exact absurd rfl hne
        · rename_i h1 hp
          rw [hp] at hne
          have hs : h1.nTotal = h.nTotal ∧ h1.held = h.held := by
            unfold purge at hp; split at hp
            · simp at hp; rw [← hp]; exact ⟨rfl, rfl⟩
            · simp at hp
          have := placeAndFinish_counts f4 h1 i nip _ hne
          exact ⟨by rw [this.1, hs.1], by rw [this.2, hs.2, hh]⟩

/-- C40: as long as no addition has failed with an exception, the total counter is the number of individuals
with a usable score added since the last clear.  Nothing is assumed of the requests: purges of the population,
capacities, individuals and the conversion are arbitrary. -/
theorem C40_total_counts_unless_failed (f4 : PyFloat → PyFloat) (n : Nat) (ops : List Op)
    (hl : NoneFails f4 (init n) ops) :
    (run f4 (init n) ops).nTotal = addedSinceClear ops := by
  have key : ∀ (ops : List Op) (h : Hist), h.held = false → NoneFails f4 h ops →
      (run f4 h ops).nTotal = ops.foldl (fun n op => match op with
        | .add i _ _ => if i.sse.isFinite then n + 1 else n
        | .clear => 0
        | _ => n) h.nTotal := by
    intro ops
    induction ops with
    | nil => intro h _ _; rfl
    | cons op ops ih =>
      intro h hh ⟨h1, h2⟩
      have hs : (step f4 h op).held = false ∧ (step f4 h op).nTotal = (match op with
          | .add i _ _ => if i.sse.isFinite then h.nTotal + 1 else h.nTotal
          | .clear => 0
          | _ => h.nTotal) := by
        cases op with
        | add i nip ch =>
          have := add_counts f4 h hh i nip ch (h1 i nip ch rfl)
          exact ⟨this.2, this.1⟩
        | notInPop i =>
          simp only [step, notInPop, hh, Bool.false_eq_true, if_false]
          split
          · exact ⟨hh, rfl⟩
          · split
            · exact ⟨hh, rfl⟩
            · exact ⟨(leavePop_same _ _).2, (leavePop_same _ _).1⟩
        | notInPopRow r =>
          simp only [step, notInPopRow, hh, Bool.false_eq_true, if_false]
          exact ⟨(leavePop_same _ _).2.trans hh, (leavePop_same _ _).1⟩
        | purgePop => simp [step, purgePop, hh]
        | clear => simp [step, clear, hh]
      have := ih (step f4 h op) hs.1 h2
      simp only [run, List.foldl_cons] at this ⊢
      rw [this, hs.2]
      cases op <;> rfl
  exact key ops (init n) rfl hl

/-! ## C42 -/

open Analysis in
/-- C42: without purging of the population, every record is in exactly one of the three views. -/
theorem C42_views_partition_nopurge (f4 : PyFloat → PyFloat) (hf : IsSingle f4) (n : Nat) (h : Hist)
    (hr : ReachNP f4 n h) (r : Nat) (hm : r ∈ h.K) :
    ∃! m : Mode, m ≠ .all ∧ r ∈ selectRows h.K h.Kp h.Kn m :=
  C42_views_partition f4 hf n h (reachNP_reach hf hr).1 r hm

open Analysis in
/-- C42: the three views together always are all records, in any state whatsoever. -/
theorem C42_views_cover_any (h : Hist) (r : Nat) :
    r ∈ h.K ↔ r ∈ selectRows h.K h.Kp h.Kn .inPop ∨ r ∈ selectRows h.K h.Kp h.Kn .former ∨
      r ∈ selectRows h.K h.Kp h.Kn .never := by
  simp only [selectRows, List.mem_filter, decide_eq_true_eq, Bool.and_eq_true]
  tauto

open Analysis in
/-- C42 fails after purging the population: a member added then may take the row of a record that never was a
member, which is in both views from then on. -/
theorem C42_views_overlap_after_purge :
    ∃ ops : List Op, (∀ op ∈ ops, op = .purgePop ∨ Normal id op) ∧
      ∃ r, r ∈ selectRows (run id (init 6) ops).K (run id (init 6) ops).Kp (run id (init 6) ops).Kn .inPop ∧
        r ∈ selectRows (run id (init 6) ops).K (run id (init 6) ops).Kp (run id (init 6) ops).Kn .never := by
  have hst : ∀ s k, Storable id (mk s k) := by
    intro s k; exact ⟨by simp [Row.finite, stored, mk, PyFloat.isFinite], rfl⟩
  refine ⟨[.add (mk 1 1) true highest, .add (mk 2 2) false highest, .add (mk 3 3) true highest, .purgePop,
     .add (mk 4 4) false highest],
    by simp [Normal, hst, highest_chooser], 2, by decide +kernel, by decide +kernel⟩

/-! ## Concrete instances of the hypotheses -/

theorem demo_reachNP : ReachNP toy 4 (run toy (init 4) demoOps) := by
  have hl := demo_legal
  have key : ∀ (ops : List Op) (h : Hist), ReachNP toy 4 h → LegalRun toy h ops →
      (∀ op ∈ ops, op ≠ .purgePop) → ReachNP toy 4 (run toy h ops) := by
    intro ops
    induction ops with
    | nil => exact fun h hr _ _ => hr
    | cons op ops ih =>
      exact fun h hr hl hp => ih _ (.step _ op hr hl.1 (hp op (by simp))) hl.2.2
        fun o ho => hp o (List.mem_cons_of_mem _ ho)
  exact key demoOps (init 4) (.init (by decide)) hl (by simp [demoOps])

example := C37_add_nopurge toy toy_single 4 _ demo_reachNP (mk 6 6) true highest demo_add_legal (by decide)

example := C38_members_kept_nopurge toy toy_single 4 _ demo_reachNP (.add (mk 6 6) true highest)
  demo_add_legal ⟨nofun, nofun⟩ 2 (by decide +kernel)

/-- The counter through additions, a purge, a colliding addition and a clear. -/
example : NoneFails id (init 6) (overwriteOps ++ [.clear, .add (mk 1 1) true highest]) ∧
    (run id (init 6) (overwriteOps ++ [.clear, .add (mk 1 1) true highest])).nTotal = 1 := by
  have h : NoneFails id (init 6) (overwriteOps ++ [.clear, .add (mk 1 1) true highest]) := by
    simp only [overwriteOps, List.cons_append, List.nil_append, NoneFails]
    refine ⟨?_, ?_, ?_, ?_, ?_, ?_, ?_, ?_, ?_, trivial⟩ <;>
      (rintro i nip ch ⟨⟩) <;> decide +kernel
  exact ⟨h, (C40_total_counts_unless_failed id 6 _ h).trans (by decide +kernel)⟩

example := C42_views_partition_nopurge toy toy_single 4 _ demo_reachNP 2 (by decide +kernel)

example := C42_views_cover_any (run toy (init 4) demoOps) 2

end History
end Ade
