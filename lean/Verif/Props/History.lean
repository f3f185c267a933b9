import Verif.Lemmas.History
import Verif.Model.Analysis
import Mathlib.Data.Rat.Floor
import Mathlib.Data.Finset.Max

/-!
# Properties C36–C40 and C42: the history
-/

set_option autoImplicit false

namespace Ade
namespace History
open ClosestPair

/-! ## A concrete rounding and concrete individuals for the examples -/

/-- A crude conversion: rounds down to integers and overflows above 1000. -/
def toy : PyFloat → PyFloat
  | .fin q => if 1000 < q then .pinf else .fin ⌊q⌋
  | x => x

theorem toy_single : IsSingle toy := by
  refine ⟨?_, ?_, ?_⟩
  · intro x; cases x <;> simp [toy]
    split <;> simp
  · intro a b ha hb h
    have hfin : ∀ q : ℚ, toy (.fin q) = if 1000 < q then .pinf else .fin ⌊q⌋ := fun _ => rfl
    cases a <;> cases b <;> simp_all [PyFloat.lt]
    all_goals first
      | rfl
      | (rename_i p q
         by_cases h1 : 1000 < p <;> by_cases h2 : 1000 < q <;> simp [h1, h2]
         · linarith
         · exact Int.floor_le_floor h)
      | (rename_i q; by_cases h1 : 1000 < q <;> simp [h1, toy])
  · intro x
    cases x <;> simp [toy]
    rename_i q
    by_cases h1 : 1000 < q
    · simp [h1]
    · simp only [h1, if_false]
      have : ¬ (1000 : ℚ) < ((⌊q⌋ : Int) : ℚ) := by
        have := Int.floor_le q; push Not at *; linarith
      simp [this]

/-- An individual with score `s`, one value and hash `k`. -/
def mk (s : ℚ) (k : Int) : Ind := ⟨.fin s, [.fin (s + 1)], some k⟩

/-- A chooser: the largest eligible row. -/
def highest (S : Finset Nat) : Option Nat := S.max

theorem highest_chooser : Chooser highest := by
  intro S hS
  obtain ⟨m, hm⟩ := Finset.max_of_nonempty hS
  exact ⟨m, Finset.mem_of_max hm, hm⟩

/-! ## C36 -/

/-- C36: in every reachable state the history holds at most `nMax` records, in pairwise distinct rows of
the array, and the scores of the records in iteration order never decrease. -/
theorem C36_bounded_sorted_partial (f4 : PyFloat → PyFloat) (hf : IsSingle f4) (n : Nat) (h : Hist)
    (hr : Reach f4 n h) :
    (records h).length ≤ n ∧ h.K.Nodup ∧ (∀ r ∈ h.K, r < n) ∧
    (records h).Pairwise fun a b => b.sse.lt a.sse = false := by
  have hg := reach_good hf hr
  have hn := (reach_nMax hr).1
  refine ⟨?_, hg.nodup, fun r hr => hn ▸ hg.rows r hr, ?_⟩
  · rw [records, List.length_map, ← hn]; exact length_le_of_lt _ _ hg.nodup hg.rows
  · rw [records, List.pairwise_map]; exact hg.sorted

/-- C36 without any condition on row configurations, for sequences that do not purge the population. -/
theorem C36_bounded_sorted_nopurge (f4 : PyFloat → PyFloat) (hf : IsSingle f4) (n : Nat) (h : Hist)
    (hr : ReachNP f4 n h) :
    (records h).length ≤ n ∧ h.K.Nodup ∧ (∀ r ∈ h.K, r < n) ∧
    (records h).Pairwise fun a b => b.sse.lt a.sse = false :=
  C36_bounded_sorted_partial f4 hf n h (reachNP_reach hf hr).1

/-- Sequence for the counterexample: the middle one of three records is a member and is purged; then one
more is added. -/
def purgeOps : List Op :=
  [.add (mk 1 1) true highest, .add (mk 2 2) false highest, .add (mk 3 3) true highest, .purgePop,
   .add (mk 4 4) true highest]

/-- C36 fails in general: after purging the population the next addition may take a row that is in use;
two entries of the history then share a row (and the record that was there is lost). -/
theorem C36_purge_then_add_shares_row :
    ∃ ops : List Op, ¬ (run id (init 10) ops).K.Nodup ∧
      (∃ x ∈ records (run id (init 10) (ops.take 4)), x ∉ records (run id (init 10) ops)) :=
  ⟨purgeOps, by decide +kernel, by decide +kernel⟩

/-- The row choice is exact: with distinct rows and a roster that is not full, the row picked is already in
use precisely in the configurations `[0,2]` with two records and `[0,N-1,N,…]` with `N ≥ 3` records. -/
theorem C36_row_in_use_iff (K : List Nat) (hn : K.Nodup) (hne : K ≠ []) :
    (∃ r ∈ K, pickRow (sortRows K) K.length = some r) ↔ Collides (sortRows K) K.length := by
  have hs := sortRows_sorted K hn
  constructor
  · rintro ⟨r, hr, hp⟩
    by_contra hc
    obtain ⟨r', hp', hf, _⟩ := pickRow_fresh (sortRows K) K.length hs
      (by intro e; have := (sortRows_perm K).length_eq; rw [e] at this; simp at this; exact hne (by
            simpa using this.symm)) (sortRows_perm K).length_eq hc
    rw [hp] at hp'
    obtain rfl := Option.some.inj hp'
    exact hf (mem_sortRows.2 hr)
  · intro hc
    obtain ⟨r, hp, hm⟩ := pickRow_collides _ _ hc hs
    exact ⟨r, mem_sortRows.1 hm, hp⟩

/-! ## C37 -/

theorem records_added {f4 : PyFloat → PyFloat} {h h' : Hist} {i : Ind} {nip : Bool} {r : Nat}
    (ha : Added f4 h h' i nip r) : (records h').Perm (stored f4 i :: records h) := by
  unfold records
  refine (ha.perm.map _).trans ?_
  rw [List.map_cons, ha.row]
  have : h.K.map h'.X = h.K.map h.X := by
    apply List.map_congr_left
    intro x hx
    exact ha.others x fun e => ha.fresh (e ▸ hx)
  rw [this]
  exact List.Perm.refl _

/-- C37: an addition to a history that is not full keeps all records and adds exactly the new one. -/
theorem C37_add_not_full (f4 : PyFloat → PyFloat) (hf : IsSingle f4) (n : Nat) (h : Hist)
    (hr : Reach f4 n h) (i : Ind) (nip : Bool) (ch : Finset Nat → Option Nat)
    (hl : Legal f4 h (.add i nip ch)) (hc : NoCollision h (.add i nip ch))
    (hi : i.sse.isFinite = true) (hlen : (records h).length < n) :
    (records (add f4 h i nip ch).1).Perm (stored f4 i :: records h) := by
  have hn := reach_nMax hr
  obtain ⟨h', h1, r, he, _, ha, hcase⟩ :=
    add_good f4 hf h (by omega) (reach_good hf hr) i nip ch hl hc hi
  rw [records, List.length_map] at hlen
  rw [he]
  rcases hcase with ⟨_, rfl⟩ | ⟨hfull, _⟩
  · exact records_added ha
  · omega

/-- C37, C43: an addition to a full history replaces exactly one of the old records by the new one: the
one the finder chooses, which is never a population member. -/
theorem C37_add_full (f4 : PyFloat → PyFloat) (hf : IsSingle f4) (n : Nat) (h : Hist)
    (hr : Reach f4 n h) (i : Ind) (nip : Bool) (ch : Finset Nat → Option Nat)
    (hl : Legal f4 h (.add i nip ch)) (hc : NoCollision h (.add i nip ch))
    (hi : i.sse.isFinite = true) (hlen : (records h).length = n) :
    ∃ v rest, ch h.cpf.K = some v ∧ v ∈ h.K ∧ v ∉ h.Kp ∧ (records h).Perm (h.X v :: rest) ∧
      (records (add f4 h i nip ch).1).Perm (stored f4 i :: rest) := by
  have hn := reach_nMax hr
  have hg := reach_good hf hr
  obtain ⟨h', h1, r, he, _, ha, hcase⟩ := add_good f4 hf h (by omega) hg i nip ch hl hc hi
  rw [records, List.length_map] at hlen
  rw [he]
  rcases hcase with ⟨hlt, _⟩ | ⟨_, hv, hx, hp⟩
  · omega
  · have hm := (hg.cK r).1 hv
    refine ⟨r, records h1, hx, hm.1, hm.2, ?_, records_added ha⟩
    unfold records
    rw [hp.X, hp.K, ← List.map_cons]
    exact (List.perm_cons_erase hm.1).map _

/-- Operations of a normal run: additions of storable individuals and removals from the population. -/
def Normal (f4 : PyFloat → PyFloat) : Op → Prop
  | .add i _ ch => (i.sse.isFinite = true → Storable f4 i) ∧ Chooser ch
  | .notInPop _ => True
  | _ => False

theorem notInPop_records (h : Hist) (i : Ind) : records (notInPop h i) = records h ∧
    (notInPop h i).K = h.K := by
  have hleave : ∀ (h : Hist) r, (leavePop h r).K = h.K ∧ (leavePop h r).X = h.X := by
    intro h r; unfold leavePop; simp only; split
    · split <;> exact ⟨rfl, rfl⟩
    · exact ⟨rfl, rfl⟩
  unfold notInPop
  split
  · exact ⟨rfl, rfl⟩
  · split
    · exact ⟨rfl, rfl⟩
    · split
      · exact ⟨rfl, rfl⟩
      · constructor
        · unfold records; rw [(hleave _ _).1, (hleave _ _).2]
        · rw [(hleave _ _).1]

/-- C37: as long as no more individuals than the capacity are added, the history holds exactly one
unaltered (float32) record for each individual with a usable score, whatever the order of additions and
removals from the population. -/
theorem C37_exactly_the_added (f4 : PyFloat → PyFloat) (hf : IsSingle f4) (n : Nat) (hn : 0 < n)
    (ops : List Op) (hops : ∀ op ∈ ops, Normal f4 op) (hlen : (rowsAdded f4 ops).length ≤ n) :
    (records (run f4 (init n) ops)).Perm (rowsAdded f4 ops) := by
  have key : ∀ (ops : List Op) (h : Hist), ReachNP f4 n h → (∀ op ∈ ops, Normal f4 op) →
      h.K.length + (rowsAdded f4 ops).length ≤ n →
      (records (run f4 h ops)).Perm (rowsAdded f4 ops ++ records h) := by
    intro ops
    induction ops with
    | nil => intro h _ _ _; simp [run, rowsAdded]
    | cons op ops ih =>
      intro h hr hops hlen
      have hop := hops op (by simp)
      have hops' := fun o ho => hops o (List.mem_cons_of_mem _ ho)
      cases op with
      | add i nip ch =>
        have hrr := (reachNP_reach hf hr)
        have hnm := reach_nMax hrr.1
        have hg := reach_good hf hrr.1
        cases hi : i.sse.isFinite with
        | false =>
          have he : rowsAdded f4 (.add i nip ch :: ops) = rowsAdded f4 ops := by
            simp [rowsAdded, hi]
          rw [he] at hlen ⊢
          have : run f4 h (.add i nip ch :: ops) = run f4 h ops := by
            simp [run, step, add_skipped f4 h i nip ch hi]
          rw [this]
          exact ih h hr hops' hlen
        | true =>
          have he : rowsAdded f4 (.add i nip ch :: ops) = stored f4 i :: rowsAdded f4 ops := by
            simp [rowsAdded, hi]
          rw [he] at hlen ⊢
          simp only [List.length_cons] at hlen
          have hleg : Legal f4 h (.add i nip ch) := ⟨hop.1, hop.2, fun e => by omega⟩
          have hnc : NoCollision h (.add i nip ch) := contiguous_not_collides h.K hrr.2
          have hperm := C37_add_not_full f4 hf n h hrr.1 i nip ch hleg hnc hi (by
            rw [records, List.length_map]; omega)
          have hlen' : (step f4 h (.add i nip ch)).K.length = h.K.length + 1 := by
            have := hperm.length_eq
            simpa [records, step] using this
          have := ih (step f4 h (.add i nip ch)) (.step h _ hr hleg (by simp)) hops' (by
            rw [hlen']; omega)
          refine List.Perm.trans this ?_
          refine (List.Perm.append_left _ hperm).trans ?_
          exact List.perm_middle
      | notInPop i =>
        have he : rowsAdded f4 (.notInPop i :: ops) = rowsAdded f4 ops := by simp [rowsAdded]
        rw [he] at hlen ⊢
        have h1 := notInPop_records h i
        have := ih (step f4 h (.notInPop i)) (.step h _ hr trivial (by simp)) hops' (by
          show (notInPop h i).K.length + _ ≤ n
          rw [h1.2]; exact hlen)
        refine List.Perm.trans this ?_
        show (rowsAdded f4 ops ++ records (notInPop h i)).Perm _
        rw [h1.1]
      | notInPopRow r => exact absurd hop (by simp [Normal])
      | purgePop => exact absurd hop (by simp [Normal])
      | clear => exact absurd hop (by simp [Normal])
  have := key ops (init n) (.init hn) hops (by simpa [init] using hlen)
  simpa [records, init] using this

/-! ## C38 -/

/-- C38: the record of a population member stays, unaltered and marked as a member, when anything is added.
In particular it is not the one evicted from a full history. -/
theorem C38_members_kept_by_add (f4 : PyFloat → PyFloat) (hf : IsSingle f4) (n : Nat) (h : Hist)
    (hr : Reach f4 n h) (i : Ind) (nip : Bool) (ch : Finset Nat → Option Nat)
    (hl : Legal f4 h (.add i nip ch)) (hc : NoCollision h (.add i nip ch)) (r : Nat) (hm : r ∈ h.Kp) :
    let h' := (add f4 h i nip ch).1
    r ∈ h'.K ∧ r ∈ h'.Kp ∧ h'.X r = h.X r := by
  have hn := reach_nMax hr
  have hg := reach_good hf hr
  cases hi : i.sse.isFinite with
  | false => rw [add_skipped f4 h i nip ch hi]; exact ⟨hg.kp r hm, hm, rfl⟩
  | true =>
    obtain ⟨h', h1, v, he, hg', ha, hcase⟩ := add_good f4 hf h (by omega) hg i nip ch hl hc hi
    rw [he]
    have h1p : h1.Kp = h.Kp := by
      rcases hcase with ⟨_, rfl⟩ | ⟨_, _, _, hp⟩
      · rfl
      · exact hp.kp
    have hmem : r ∈ h'.Kp := by
      rw [ha.kp, h1p]; split
      · exact hm
      · exact Finset.mem_insert_of_mem hm
    refine ⟨hg'.kp r hmem, hmem, ?_⟩
    rcases hcase with ⟨_, rfl⟩ | ⟨_, hv, _, hp⟩
    · exact ha.others r fun e => ha.fresh (e ▸ hg.kp r hm)
    · have hvr : r ≠ v := fun e => ((hg.cK v).1 hv).2 (e ▸ hm)
      rw [ha.others r hvr, hp.X]

/-- C38: no operation other than purging the population or clearing removes or alters the record of a
population member. -/
theorem C38_members_removed_only_by_purge_or_clear (f4 : PyFloat → PyFloat) (hf : IsSingle f4) (n : Nat)
    (h : Hist) (hr : Reach f4 n h) (op : Op) (hl : Legal f4 h op) (hc : NoCollision h op)
    (hop : op ≠ .purgePop ∧ op ≠ .clear) (r : Nat) (hm : r ∈ h.Kp) :
    r ∈ (step f4 h op).K ∧ (step f4 h op).X r = h.X r := by
  have hg := reach_good hf hr
  have hK := hg.kp r hm
  have hleave : ∀ (h : Hist) r, (leavePop h r).K = h.K ∧ (leavePop h r).X = h.X := by
    intro h r; unfold leavePop; simp only; split
    · split <;> exact ⟨rfl, rfl⟩
    · exact ⟨rfl, rfl⟩
  cases op with
  | add i nip ch =>
    have := C38_members_kept_by_add f4 hf n h hr i nip ch hl hc r hm
    exact ⟨this.1, this.2.2⟩
  | notInPop i =>
    simp only [step, notInPop, hg.held, Bool.false_eq_true, if_false]
    split
    · exact ⟨hK, rfl⟩
    · split
      · exact ⟨hK, rfl⟩
      · rw [(hleave _ _).1, (hleave _ _).2]; exact ⟨hK, rfl⟩
  | notInPopRow r' =>
    simp only [step, notInPopRow, hg.held, Bool.false_eq_true, if_false]
    rw [(hleave _ _).1, (hleave _ _).2]; exact ⟨hK, rfl⟩
  | purgePop => exact absurd rfl hop.1
  | clear => exact absurd rfl hop.2

/-! ## C39 -/

/-- C39, the part that holds: under the conditions of `Legal` (storable individual, capacity other than 1 and
3 when full, not all records are members), an addition completes with the row of the new record, or with
nothing exactly if the score is not finite, and the lock is free for later operations. -/
theorem C39_add_completes_partial (f4 : PyFloat → PyFloat) (hf : IsSingle f4) (n : Nat) (h : Hist)
    (hr : Reach f4 n h) (i : Ind) (nip : Bool) (ch : Finset Nat → Option Nat)
    (hl : Legal f4 h (.add i nip ch)) (hc : NoCollision h (.add i nip ch)) :
    (add f4 h i nip ch).1.held = false ∧
    ((i.sse.isFinite = false ∧ (add f4 h i nip ch).2 = .skipped ∧ (add f4 h i nip ch).1 = h) ∨
     (i.sse.isFinite = true ∧ ∃ r, (add f4 h i nip ch).2 = .row r ∧ r ∈ (add f4 h i nip ch).1.K ∧
        (add f4 h i nip ch).1.X r = stored f4 i)) := by
  have hn := reach_nMax hr
  have hg := reach_good hf hr
  cases hi : i.sse.isFinite with
  | false => rw [add_skipped f4 h i nip ch hi]; exact ⟨hg.held, .inl ⟨rfl, rfl, rfl⟩⟩
  | true =>
    obtain ⟨h', h1, v, he, hg', ha, hcase⟩ := add_good f4 hf h (by omega) hg i nip ch hl hc hi
    rw [he]
    exact ⟨hg'.held, .inr ⟨rfl, v, rfl, by rw [ha.perm.mem_iff]; simp, ha.row⟩⟩

/-- C39 fails: in a full history all of whose records are population members, an addition raises an
exception and leaves the lock acquired. -/
theorem C39_full_of_members_fails (f4 : PyFloat → PyFloat) (h : Hist) (i : Ind) (nip : Bool)
    (ch : Finset Nat → Option Nat) (hch : ch ∅ = none) (hi : i.sse.isFinite = true)
    (hheld : h.held = false) (hfull : h.K.length = h.nMax) (hpos : 0 < h.nMax) (hmem : h.cpf.K = ∅) :
    (add f4 h i nip ch).2 = .error ∧ (add f4 h i nip ch).1.held = true := by
  unfold add
  simp only [hi, hheld, if_true, Bool.false_eq_true, if_false]
  rw [if_neg (by omega), if_neg (by omega), hmem, hch]
  exact ⟨rfl, rfl⟩

/-- ... and from then on nothing works any more: every later addition of a usable score waits forever and
no operation changes anything. -/
theorem C39_after_failure_all_blocked (f4 : PyFloat → PyFloat) (h : Hist) (hheld : h.held = true) :
    (∀ i nip ch, i.sse.isFinite = true → (add f4 h i nip ch).2 = .blocked) ∧
    ∀ ops, run f4 h ops = h := by
  refine ⟨fun i nip ch hi => by simp [add, hi, hheld], fun ops => ?_⟩
  have hstep : ∀ op, step f4 h op = h := by
    intro op
    cases op with
    | add i nip ch => simp only [step, add, hheld]; split <;> simp
    | notInPop i => simp [step, notInPop, hheld]
    | notInPopRow r => simp [step, notInPopRow, hheld]
    | purgePop => simp [step, purgePop, hheld]
    | clear => simp [step, clear, hheld]
  induction ops with
  | nil => rfl
  | cons op ops ih => simp only [run, List.foldl_cons, hstep] at ih ⊢; exact ih

/-- The state of the previous theorems is reached by adding as many members as the capacity. -/
example :
    let h := run id (init 4) [.add (mk 1 1) false highest, .add (mk 2 2) false highest,
      .add (mk 3 3) false highest, .add (mk 4 4) false highest]
    h.held = false ∧ h.K.length = h.nMax ∧ h.cpf.K = ∅ ∧
      (add id h (mk 5 5) true highest).2 = .error ∧
      (add id (add id h (mk 5 5) true highest).1 (mk 6 6) true highest).2 = .blocked := by
  decide +kernel

/-- C39 fails for capacity 3: evicting the middle row makes the next row number 3, which does not exist; and
for capacity 1, where the row search is on an empty list. -/
theorem C39_capacity_three_and_one_fail :
    (∃ ops, (run id (init 3) ops).held = true ∧ ∀ op ∈ ops, Normal id op) ∧
    (∃ ops, (run id (init 1) ops).held = true ∧ ∀ op ∈ ops, Normal id op) := by
  have hst : ∀ s k, Storable id (mk s k) := by
    intro s k; exact ⟨by simp [Row.finite, stored, mk, PyFloat.isFinite], rfl⟩
  refine ⟨⟨[.add (mk 1 1) false highest, .add (mk 2 2) true highest,
      .add (mk 3 3) false highest, .add (mk 4 4) true highest], by decide +kernel, ?_⟩,
    ⟨[.add (mk 1 1) true highest, .add (mk 2 2) true highest], by decide +kernel, ?_⟩⟩
  · simp [Normal, hst, highest_chooser]
  · simp [Normal, hst, highest_chooser]

/-- C39 fails for an individual with a finite SSE or value that overflows float32, added as never in the
population. -/
theorem C39_overflow_fails (f4 : PyFloat → PyFloat) (h : Hist) (hpos : 0 < h.nMax) (hK : h.K = [])
    (i : Ind) (ch : Finset Nat → Option Nat) (hi : i.sse.isFinite = true) (hheld : h.held = false)
    (hov : (f4 i.sse).isFinite = false ∨ ∃ v ∈ i.values, (f4 v).isFinite = false) :
    (add f4 h i true ch).2 = .error ∧ (add f4 h i true ch).1.held = true := by
  have hov : (rowOf f4 i).finite = false := by
    unfold Row.finite rowOf
    rcases hov with h | ⟨v, hv, h⟩
    · simp [h]
    · rw [Bool.and_eq_false_iff]
      right
      rw [List.all_eq_false]
      exact ⟨f4 v, List.mem_map_of_mem hv, by simp [h]⟩
  simp [add, hi, hheld, hK, finishAdd, writeRecord, hpos, Finder.setRow, hov]

example (ch : Finset Nat → Option Nat) := C39_overflow_fails toy (init 3) (by decide) rfl ⟨.fin 3, [.fin 2000], some 1⟩ ch rfl rfl
  (.inr ⟨.fin 2000, by simp, by decide +kernel⟩)

/-! ## C41, C43: what the finder and the hash map know -/

/-- C43: the records eligible for eviction are always exactly those that are not of current population
members, and those of them that were never members are known as such. -/
theorem C43_eligible_iff (f4 : PyFloat → PyFloat) (hf : IsSingle f4) (n : Nat) (h : Hist)
    (hr : Reach f4 n h) (r : Nat) :
    (r ∈ h.cpf.K ↔ r ∈ h.K ∧ r ∉ h.Kp) ∧ (r ∈ h.cpf.Kn ↔ r ∈ h.K ∧ r ∈ h.Kn) := by
  have hg := reach_good hf hr
  refine ⟨hg.cK r, ?_⟩
  rw [hg.cKn]
  exact ⟨fun h => ⟨hg.kn r h, h⟩, fun h => h.2⟩

/-- C41: after the population was purged from the history, there is no current member, and no individual
that leaves the population afterwards changes anything (until it is added again). -/
theorem C41_purge_forgets (h : Hist) (hheld : h.held = false) (i : Ind) :
    (purgePop h).Kp = ∅ ∧ notInPop (purgePop h) i = purgePop h := by
  simp only [purgePop, hheld, notInPop]
  refine ⟨rfl, ?_⟩
  cases i.key <;> rfl

/-- C38: purging the population removes exactly the records of the members. -/
theorem C38_purge_removes_members (f4 : PyFloat → PyFloat) (hf : IsSingle f4) (n : Nat) (h : Hist)
    (hr : Reach f4 n h) :
    records (purgePop h) = (h.K.filter fun r => decide (r ∉ h.Kp)).map h.X ∧
      (∀ r, r ∈ (purgePop h).Kn ↔ r ∈ h.Kn) ∧ (purgePop h).nTotal = h.nTotal := by
  have hg := reach_good hf hr
  simp only [purgePop, hg.held, records]
  refine ⟨rfl, fun r => ?_, rfl⟩
  simp only [Bool.false_eq_true, if_false, Finset.mem_sdiff]
  exact ⟨fun h => h.1, fun h => ⟨h, fun hp => hg.disj r hp h⟩⟩

/-! ## C40 -/

theorem add_total (f4 : PyFloat → PyFloat) (hf : IsSingle f4) (h : Hist) (hpos : 0 < h.nMax)
    (hg : Good f4 h) (i : Ind) (nip : Bool) (ch : Finset Nat → Option Nat)
    (hl : Legal f4 h (.add i nip ch)) (hc : NoCollision h (.add i nip ch)) :
    (add f4 h i nip ch).1.nTotal = if i.sse.isFinite then h.nTotal + 1 else h.nTotal := by
  cases hi : i.sse.isFinite with
  | false => rw [add_skipped f4 h i nip ch hi]; simp
  | true =>
    obtain ⟨h', h1, v, he, hg', ha, hcase⟩ := add_good f4 hf h hpos hg i nip ch hl hc hi
    rw [he]
    simp only [ha.total, if_true]
    rcases hcase with ⟨_, rfl⟩ | ⟨_, _, _, hp⟩
    · rfl
    · rw [hp.total]

/-- C40: the total counter is the number of individuals with a usable score added since the last clear. -/
theorem C40_total_counts (f4 : PyFloat → PyFloat) (hf : IsSingle f4) (n : Nat) (hn : 0 < n)
    (ops : List Op) (hl : LegalRun f4 (init n) ops) :
    (run f4 (init n) ops).nTotal = addedSinceClear ops := by
  have key : ∀ (ops : List Op) (h : Hist), Reach f4 n h → LegalRun f4 h ops →
      (run f4 h ops).nTotal = ops.foldl (fun n op => match op with
        | .add i _ _ => if i.sse.isFinite then n + 1 else n
        | .clear => 0
        | _ => n) h.nTotal := by
    intro ops
    induction ops with
    | nil => intro h _ _; rfl
    | cons op ops ih =>
      intro h hr ⟨h1, h2, h3⟩
      have hg := reach_good hf hr
      have := ih (step f4 h op) (.step h op hr h1 h2) h3
      simp only [run, List.foldl_cons] at this ⊢
      rw [this]
      congr 1
      have hleave : ∀ (h : Hist) r, (leavePop h r).nTotal = h.nTotal := by
        intro h r; unfold leavePop; simp only; split
        · split <;> rfl
        · rfl
      cases op with
      | add i nip ch =>
        have hnm := reach_nMax hr
        exact add_total f4 hf h (by omega) hg i nip ch h1 h2
      | notInPop i =>
        simp only [step, notInPop, hg.held, Bool.false_eq_true, if_false]
        split
        · rfl
        · split
          · rfl
          · rw [hleave]
      | notInPopRow r =>
        simp only [step, notInPopRow, hg.held, Bool.false_eq_true, if_false, hleave]
      | purgePop => simp [step, purgePop, hg.held]
      | clear => simp [step, clear, hg.held]
  exact key ops (init n) (.init hn) hl

/-- C40: nothing but a clear decreases the counter, in any state whatsoever. -/
theorem C40_total_monotone (f4 : PyFloat → PyFloat) (h : Hist) (op : Op) (hop : op ≠ .clear) :
    h.nTotal ≤ (step f4 h op).nTotal := by
  have hfin : ∀ (h : Hist) (i : Ind) (nip : Bool) (k r : Nat),
      h.nTotal ≤ (finishAdd f4 h i nip k r).1.nTotal := by
    intro h i nip k r
    have hw : h.nTotal ≤ (writeRecord f4 h i nip k r).1.nTotal := by
      unfold writeRecord
      split
      · cases nip
        · simp only [Bool.false_eq_true, if_false]; split <;> simp
        · simp only [if_true]; split <;> simp
      · exact le_refl _
    unfold finishAdd
    split <;> (rename_i heq; rw [heq] at hw; exact hw)
  have hplace : ∀ (h : Hist) (i : Ind) (nip : Bool) (N : Nat),
      h.nTotal ≤ (placeAndFinish f4 h i nip N).1.nTotal := by
    intro h i nip N
    unfold placeAndFinish
    split
    · exact le_refl _
    · exact hfin _ _ _ _ _
  have hleave : ∀ (h : Hist) r, (leavePop h r).nTotal = h.nTotal := by
    intro h r; unfold leavePop; simp only; split
    · split <;> rfl
    · rfl
  cases op with
  | add i nip ch =>
    simp only [step, add]
    split
    · split
      · exact le_refl _
      · split
        · exact hfin _ _ _ _ _
        · split
          · exact hplace _ _ _ _
          · split
            · exact le_refl _
            · split
              · exact le_refl _
              · rename_i h1 hp
                have : h1.nTotal = h.nTotal := by
                  unfold purge at hp; split at hp
                  · simp at hp; rw [← hp]
                  · simp at hp
                rw [← this]; exact hplace _ _ _ _
    · exact le_refl _
  | notInPop i =>
    simp only [step, notInPop]; split
    · exact le_refl _
    · split
      · exact le_refl _
      · split
        · exact le_refl _
        · rw [hleave]
  | notInPopRow r => simp only [step, notInPopRow]; split <;> simp [hleave]
  | purgePop => simp only [step, purgePop]; split <;> simp
  | clear => exact absurd rfl hop

/-! ## C42 -/

open Analysis in
/-- C42: every record is in exactly one of the views "in population", "formerly in population" and "never in
population". -/
theorem C42_views_partition (f4 : PyFloat → PyFloat) (hf : IsSingle f4) (n : Nat) (h : Hist)
    (hr : Reach f4 n h) (r : Nat) (hm : r ∈ h.K) :
    ∃! m : Mode, m ≠ .all ∧ r ∈ selectRows h.K h.Kp h.Kn m := by
  have hg := reach_good hf hr
  by_cases hp : r ∈ h.Kp
  · refine ⟨.inPop, ⟨by simp, by simp [selectRows, hm, hp]⟩, ?_⟩
    rintro m ⟨hm1, hm2⟩
    cases m <;> simp_all [selectRows]
    exact hg.disj r hp hm2
  · by_cases hn : r ∈ h.Kn
    · refine ⟨.never, ⟨by simp, by simp [selectRows, hm, hn]⟩, ?_⟩
      rintro m ⟨hm1, hm2⟩
      cases m <;> simp_all [selectRows]
    · refine ⟨.former, ⟨by simp, by simp [selectRows, hm, hn, hp]⟩, ?_⟩
      rintro m ⟨hm1, hm2⟩
      cases m <;> simp_all [selectRows]

open Analysis in
/-- C42: the views contain nothing but records of the history, and their sizes add up to its size. -/
theorem C42_views_cover (f4 : PyFloat → PyFloat) (hf : IsSingle f4) (n : Nat) (h : Hist)
    (hr : Reach f4 n h) :
    (∀ m, ∀ r ∈ selectRows h.K h.Kp h.Kn m, r ∈ h.K) ∧
    (selectRows h.K h.Kp h.Kn .inPop).length + (selectRows h.K h.Kp h.Kn .former).length +
      (selectRows h.K h.Kp h.Kn .never).length = h.K.length := by
  have hg := reach_good hf hr
  refine ⟨?_, ?_⟩
  · intro m r hm
    cases m <;> simp_all [selectRows]
  · have hd := hg.disj
    generalize h.K = K
    simp only [selectRows]
    induction K with
    | nil => rfl
    | cons k K ih =>
      simp only [List.filter_cons]
      by_cases hp : k ∈ h.Kp
      · have := hd k hp
        simp only [hp, this, decide_true, decide_false, not_true, if_true, Bool.false_eq_true, if_false,
          List.length_cons, Bool.false_and]
        omega
      · by_cases hn : k ∈ h.Kn
        · simp only [hp, hn, decide_true, decide_false, not_true, if_true, Bool.false_eq_true, if_false,
            List.length_cons, Bool.and_false]
          omega
        · simp only [hp, hn, decide_true, decide_false, not_false_eq_true, if_true, Bool.false_eq_true,
            if_false, List.length_cons, Bool.and_self]
          omega

/-! ## Concrete instances of the hypotheses -/

theorem mk_storable (s : ℚ) (k : Int) (h : s + 1 ≤ 1000) : Storable toy (mk s k) := by
  have h1 : ¬ (1000 : ℚ) < s := by push Not; linarith
  have h2 : ¬ (1000 : ℚ) < s + 1 := by push Not; exact h
  exact ⟨by simp [Row.finite, stored, mk, toy, h1, h2, PyFloat.isFinite], rfl⟩

/-- A run in which a history of capacity 4 is filled, one member leaves, and a fifth individual evicts a
record: all hypotheses hold at every step. -/
def demoOps : List Op :=
  [.add (mk 5 1) false highest, .add (mk 3 2) true highest, .add (mk 9 3) false highest,
   .add (mk 4 4) true highest, .notInPop (mk 5 1), .add (mk 7 5) false highest]

theorem demo_legal : LegalRun toy (init 4) demoOps := by
  simp only [demoOps, LegalRun, Legal, NoCollision, and_true, true_and]
  refine ⟨⟨fun _ => mk_storable _ _ (by norm_num), highest_chooser, ?_⟩, ?_,
    ⟨fun _ => mk_storable _ _ (by norm_num), highest_chooser, ?_⟩, ?_,
    ⟨fun _ => mk_storable _ _ (by norm_num), highest_chooser, ?_⟩, ?_,
    ⟨fun _ => mk_storable _ _ (by norm_num), highest_chooser, ?_⟩, ?_,
    ⟨fun _ => mk_storable _ _ (by norm_num), highest_chooser, ?_⟩, ?_⟩
  all_goals decide +kernel

theorem legalRun_reach {f4 : PyFloat → PyFloat} {n : Nat} (ops : List Op) :
    ∀ {h : Hist}, Reach f4 n h → LegalRun f4 h ops → Reach f4 n (run f4 h ops) := by
  induction ops with
  | nil => exact fun hr _ => hr
  | cons op ops ih => exact fun hr hl => ih (.step _ op hr hl.1 hl.2.1) hl.2.2

theorem demo_reach : Reach toy 4 (run toy (init 4) demoOps) :=
  legalRun_reach demoOps (.init (by omega)) demo_legal

/-- The demonstration state is full, has members, former members and never-members. -/
example : (run toy (init 4) demoOps).K.length = 4 ∧ (run toy (init 4) demoOps).Kp.card = 2 ∧
    (run toy (init 4) demoOps).Kn.card = 1 ∧ (run toy (init 4) demoOps).nTotal = 5 := by
  decide +kernel

/-- The state before the roster is full. -/
theorem demo_reach3 : Reach toy 4 (run toy (init 4) (demoOps.take 3)) :=
  legalRun_reach _ (.init (by omega)) (by
    have := demo_legal
    simp only [demoOps, List.take_succ_cons, List.take_zero, LegalRun, and_true] at this ⊢
    exact ⟨this.1, this.2.1, this.2.2.1, this.2.2.2.1, this.2.2.2.2.1, this.2.2.2.2.2.1⟩)

/-- Adding another individual is proper when the roster is full... -/
theorem demo_add_legal : Legal toy (run toy (init 4) demoOps) (.add (mk 6 6) true highest) :=
  ⟨fun _ => mk_storable _ _ (by norm_num), highest_chooser, by decide +kernel⟩

theorem demo_add_free : NoCollision (run toy (init 4) demoOps) (.add (mk 6 6) true highest) := by
  simp only [NoCollision]; decide +kernel

/-- ... and when it is not. -/
theorem demo_add_legal3 : Legal toy (run toy (init 4) (demoOps.take 3)) (.add (mk 6 6) true highest) :=
  ⟨fun _ => mk_storable _ _ (by norm_num), highest_chooser, by decide +kernel⟩

theorem demo_add_free3 : NoCollision (run toy (init 4) (demoOps.take 3)) (.add (mk 6 6) true highest) := by
  simp only [NoCollision]; decide +kernel

example := C36_bounded_sorted_partial toy toy_single 4 _ demo_reach

example := C36_bounded_sorted_nopurge toy toy_single 4 _
  (.step _ (.add (mk 6 6) true highest) (.init (by decide))
    ⟨fun _ => mk_storable _ _ (by norm_num), highest_chooser, by decide +kernel⟩ nofun)

example := C36_row_in_use_iff [3, 0, 2] (by decide) (by decide)

example := C37_add_not_full toy toy_single 4 _ demo_reach3 (mk 6 6) true highest demo_add_legal3 demo_add_free3
  (by decide) (by decide +kernel)

example := C37_add_full toy toy_single 4 _ demo_reach (mk 6 6) true highest demo_add_legal demo_add_free
  (by decide) (by decide +kernel)

example := C37_exactly_the_added toy toy_single 4 (by decide)
  [.add (mk 5 1) false highest, .add (mk 3 2) true highest, .notInPop (mk 5 1), .add (mk 9 3) true highest]
  (by
    intro op hop
    simp only [List.mem_cons, List.not_mem_nil, or_false] at hop
    rcases hop with rfl | rfl | rfl | rfl
    · exact ⟨fun _ => mk_storable _ _ (by norm_num), highest_chooser⟩
    · exact ⟨fun _ => mk_storable _ _ (by norm_num), highest_chooser⟩
    · trivial
    · exact ⟨fun _ => mk_storable _ _ (by norm_num), highest_chooser⟩)
  (by decide +kernel)

example := C38_members_kept_by_add toy toy_single 4 _ demo_reach (mk 6 6) true highest demo_add_legal demo_add_free
  2 (by decide +kernel)

example := C38_members_removed_only_by_purge_or_clear toy toy_single 4 _ demo_reach (.add (mk 6 6) true highest)
  demo_add_legal demo_add_free ⟨nofun, nofun⟩ 2 (by decide +kernel)

example := C39_add_completes_partial toy toy_single 4 _ demo_reach (mk 6 6) true highest demo_add_legal demo_add_free

example := C39_full_of_members_fails id
  (run id (init 2) [.add (mk 1 1) false highest, .add (mk 2 2) false highest]) (mk 5 5) true highest
  (by decide +kernel) (by decide) (by decide +kernel) (by decide +kernel) (by decide +kernel) (by decide +kernel)

example := C43_eligible_iff toy toy_single 4 _ demo_reach 2

example := C41_purge_forgets (run toy (init 4) demoOps) (by decide +kernel) (mk 9 3)

example := C38_purge_removes_members toy toy_single 4 _ demo_reach

example := C40_total_counts toy toy_single 4 (by decide) demoOps demo_legal

example := C40_total_monotone toy (run toy (init 4) demoOps) .purgePop nofun

example := C42_views_partition toy toy_single 4 _ demo_reach 2 (by decide +kernel)

end History
end Ade
