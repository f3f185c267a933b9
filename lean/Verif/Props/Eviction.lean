import Verif.Props.History
import Verif.Props.Difference
import Verif.Props.Single

/-!
# Which record makes room in a full history (C131)
-/

set_option autoImplicit false

namespace Ade
namespace Eviction

open History ClosestPair

/-- A way of choosing as the finder chooses: with some listing of the eligible rows, some limit on the number of pairs,
differences, and random draws if not all pairs are examined. -/
def FromFinder (ch : Finset Nat → Option Nat) : Prop :=
  ∀ S : Finset Nat, S.Nonempty → ∃ l Np rounds D, l.Nodup ∧ l.toFinset = S ∧ 0 < Np ∧
    (Np ≤ l.length * (l.length - 1) / 2 → Sampled l Np rounds) ∧ ch S = ClosestPair.call l Np rounds D

/-- If all pairs are examined nothing is drawn. -/
theorem draws_unused (l : List Nat) (Np : Nat) (h : l.length * (l.length - 1) / 2 < Np) (rounds rounds' : List (List (Nat × Nat)))
    (D : Nat × Nat → PyFloat) : ClosestPair.call l Np rounds D = ClosestPair.call l Np rounds' D := by
  unfold ClosestPair.call
  split
  · rfl
  · rw [if_pos h, if_pos h]

theorem some_draws (l : List Nat) (hn : l.Nodup) (hlen : 2 ≤ l.length) (Np : Nat) : ∃ rounds, Sampled l Np rounds := by
  obtain ⟨p, hp⟩ := List.exists_mem_of_ne_nil _ (pairsAll_ne_nil l hn hlen)
  obtain ⟨h1, h2, h3⟩ := (mem_pairsAll l p).1 hp
  refine ⟨[List.replicate Np p], ?_, ?_⟩
  · intro r hr q hq
    rw [List.mem_singleton.1 hr] at hq
    rw [List.eq_of_mem_replicate hq]
    exact ⟨h1, h2⟩
  · simp [drawnPairs, h3]

theorem finder_choice {ch : Finset Nat → Option Nat} (h : FromFinder ch) (S : Finset Nat) (hS : 2 ≤ S.card) :
    ∃ r r', ch S = some r ∧ r ∈ S ∧ r' ∈ S ∧ r < r' := by
  obtain ⟨l, Np, rounds, D, hn, rfl, hNp, hs, he⟩ := h S (Finset.card_pos.1 (by omega))
  rw [List.toFinset_card_of_nodup hn] at hS
  obtain ⟨rounds', hs', he'⟩ : ∃ rounds', Sampled l Np rounds' ∧
      ClosestPair.call l Np rounds D = ClosestPair.call l Np rounds' D := by
    rcases Nat.lt_or_ge (l.length * (l.length - 1) / 2) Np with h | h
    · obtain ⟨rounds', hs'⟩ := some_draws l hn hS Np
      exact ⟨rounds', hs', draws_unused l Np h _ _ D⟩
    · exact ⟨rounds, hs h, rfl⟩
  obtain ⟨r, r', h1, h2, h3, h4, -⟩ := C43_chooses_from_closest_pair l hn hS Np hNp rounds' hs' D
  exact ⟨r, r', he.trans (he'.trans h1), List.mem_toFinset.2 h2, List.mem_toFinset.2 h3, h4⟩

theorem finder_chooser {ch : Finset Nat → Option Nat} (h : FromFinder ch) : Chooser ch := by
  intro S hS
  rcases Nat.lt_or_ge S.card 2 with h2 | h2
  · have h1 : S.card = 1 := by have := Finset.card_pos.2 hS; omega
    obtain ⟨l, Np, rounds, D, hn, rfl, -, -, he⟩ := h S hS
    rw [List.toFinset_card_of_nodup hn] at h1
    obtain ⟨k, rfl⟩ := List.length_eq_one_iff.1 h1
    exact ⟨k, by simp, he⟩
  · obtain ⟨r, -, h1, h3, -⟩ := finder_choice h S h2
    exact ⟨r, h3, h1⟩

/-- Operations of a normal run, with the choices made by the finder. -/
def Usual (f4 : PyFloat → PyFloat) : Op → Prop
  | .add i _ ch => (i.sse.isFinite = true → Storable f4 i) ∧ FromFinder ch
  | .notInPop _ => True
  | _ => False

/-- C131: what does hold: an addition to a full history of which at least two records are not of members of the population
replaces one record that is not of a member, and it is one that has another such record in a higher row.  (What is missing is
that it has the highest score, see `C131_best_goes_worst_stays`.) -/
theorem C131_lower_row_goes_partial (f4 : PyFloat → PyFloat) (hf : IsSingle f4) (n : Nat) (hn : 4 ≤ n) (h : Hist)
    (hr : ReachNP f4 n h) (hlen : (records h).length = n) (hfew : h.Kp.card + 2 ≤ n) (i : Ind) (nip : Bool)
    (ch : Finset Nat → Option Nat) (hch : FromFinder ch) (hi : i.sse.isFinite = true) (hst : Storable f4 i) :
    ∃ v w rest, v ∈ h.K ∧ v ∉ h.Kp ∧ w ∈ h.K ∧ w ∉ h.Kp ∧ v < w ∧ (records h).Perm (h.X v :: rest) ∧
      (records (add f4 h i nip ch).1).Perm (stored f4 i :: rest) := by
  have hrr := reachNP_reach hf hr
  have hnm := reach_nMax hrr.1
  have hg := reach_good hf hrr.1
  have hleg : Legal f4 h (.add i nip ch) := ⟨fun _ => hst, finder_chooser hch, fun _ => by omega⟩
  have hnc : NoCollision h (.add i nip ch) := contiguous_not_collides h.K hrr.2
  obtain ⟨v, rest, h1, h2, h3, h4, h5⟩ := C37_add_full f4 hf n h hrr.1 i nip ch hleg hnc hi hlen
  have hck : h.cpf.K = h.K.toFinset \ h.Kp := by
    ext x; rw [hg.cK x]; simp
  have hc2 : 2 ≤ h.cpf.K.card := by
    have h1 := Finset.le_card_sdiff h.Kp h.K.toFinset
    rw [← hck, List.toFinset_card_of_nodup hg.nodup] at h1
    rw [records, List.length_map] at hlen
    omega
  obtain ⟨v', w, hv, -, hw, hlt⟩ := finder_choice hch _ hc2
  rw [h1] at hv
  cases hv
  obtain ⟨hw1, hw2⟩ := (hg.cK w).1 hw
  exact ⟨v, w, rest, h2, h3, hw1, hw2, hlt, h4, h5⟩

theorem leave_keeps (h : Hist) (i : Ind) : (notInPop h i).X = h.X := by
  have hleave : ∀ (h : Hist) r, (leavePop h r).X = h.X := by
    intro h r; unfold leavePop; simp only; split
    · split <;> rfl
    · rfl
  unfold notInPop
  split
  · rfl
  · split
    · rfl
    · split
      · rfl
      · rw [hleave]

/-- The record in the last row of a full history stays. -/
theorem last_row_stays (f4 : PyFloat → PyFloat) (hf : IsSingle f4) (n : Nat) (hn : 4 ≤ n) (ops : List Op) (h : Hist)
    (hr : ReachNP f4 n h) (hlast : n - 1 ∈ h.K) (hops : ∀ op ∈ ops, Usual f4 op)
    (hfew : ∀ k, (run f4 h (ops.take k)).Kp.card + 2 ≤ n) :
    n - 1 ∈ (run f4 h ops).K ∧ (run f4 h ops).X (n - 1) = h.X (n - 1) := by
  induction ops generalizing h with
  | nil => exact ⟨hlast, rfl⟩
  | cons op ops ih =>
    have hop := hops op (by simp)
    have hops' : ∀ o ∈ ops, Usual f4 o := fun o ho => hops o (List.mem_cons_of_mem _ ho)
    have hfew' : ∀ k, (run f4 (step f4 h op) (ops.take k)).Kp.card + 2 ≤ n := fun k => hfew (k + 1)
    have hcard : h.Kp.card + 2 ≤ n := hfew 0
    have hrr := reachNP_reach hf hr
    have hnm := reach_nMax hrr.1
    have hg := reach_good hf hrr.1
    cases op with
    | add i nip ch =>
      have hleg : Legal f4 h (.add i nip ch) :=
        ⟨hop.1, finder_chooser hop.2, fun _ => by omega⟩
      have hnc : NoCollision h (.add i nip ch) := contiguous_not_collides h.K hrr.2
      have hr' : ReachNP f4 n (step f4 h (.add i nip ch)) := .step h _ hr hleg (by simp)
      suffices H : n - 1 ∈ (step f4 h (.add i nip ch)).K ∧ (step f4 h (.add i nip ch)).X (n - 1) = h.X (n - 1) by
        obtain ⟨h1, h2⟩ := ih _ hr' H.1 hops' hfew'
        exact ⟨h1, h2.trans H.2⟩
      cases hi : i.sse.isFinite with
      | false => simp only [step]; rw [add_skipped f4 h i nip ch hi]; exact ⟨hlast, rfl⟩
      | true =>
        obtain ⟨h', h1, r, he, -, ha, hcase⟩ := add_good f4 hf h (by omega) hg i nip ch hleg hnc hi
        simp only [step]
        rw [he]
        dsimp only
        rcases hcase with ⟨-, rfl⟩ | ⟨hfull, -, hx, hp⟩
        · have hne : n - 1 ≠ r := by rintro rfl; exact ha.fresh hlast
          exact ⟨ha.perm.mem_iff.2 (List.mem_cons_of_mem _ hlast), ha.others _ hne⟩
        · have hck : h.cpf.K = h.K.toFinset \ h.Kp := by
            ext x; rw [hg.cK x]; simp
          have hc2 : 2 ≤ h.cpf.K.card := by
            have h1 := Finset.le_card_sdiff h.Kp h.K.toFinset
            rw [← hck, List.toFinset_card_of_nodup hg.nodup] at h1
            omega
          obtain ⟨v, w, hv, hvm, hw, hlt⟩ := finder_choice hop.2 _ hc2
          rw [hx] at hv
          cases hv
          have hwn : w < h.nMax := hg.rows w ((hg.cK w).1 hw).1
          have hne : n - 1 ≠ r := by omega
          refine ⟨ha.perm.mem_iff.2 (List.mem_cons_of_mem _ ?_), by rw [ha.others _ hne, hp.X]⟩
          rw [hp.K]
          exact (List.mem_erase_of_ne hne).2 hlast
    | notInPop i =>
      have h1 := notInPop_records h i
      have hr' : ReachNP f4 n (step f4 h (.notInPop i)) := .step h _ hr trivial (by simp)
      obtain ⟨h2, h3⟩ := ih _ hr' (show n - 1 ∈ (notInPop h i).K by rw [h1.2]; exact hlast) hops' hfew'
      exact ⟨h2, h3.trans (by rw [show step f4 h (.notInPop i) = notInPop h i from rfl, leave_keeps])⟩
    | notInPopRow r => exact absurd hop (by simp [Usual])
    | purgePop => exact absurd hop (by simp [Usual])
    | clear => exact absurd hop (by simp [Usual])

/-- C131: the individual that fills the history is never removed to make room, however bad it is, as long as at least two
records are not of members of the population. -/
theorem C131_filling_record_stays (f4 : PyFloat → PyFloat) (hf : IsSingle f4) (n : Nat) (hn : 4 ≤ n) (h : Hist)
    (hr : ReachNP f4 n h) (hlen : (records h).length + 1 = n) (i : Ind) (nip : Bool) (ch : Finset Nat → Option Nat)
    (hi : i.sse.isFinite = true) (hst : Storable f4 i) (hch : Chooser ch) (ops : List Op)
    (hops : ∀ op ∈ ops, Usual f4 op)
    (hfew : ∀ k, (run f4 h (.add i nip ch :: ops.take k)).Kp.card + 2 ≤ n) :
    stored f4 i ∈ records (run f4 h (.add i nip ch :: ops)) := by
  have hrr := reachNP_reach hf hr
  have hnm := reach_nMax hrr.1
  have hg := reach_good hf hrr.1
  rw [records, List.length_map] at hlen
  have hleg : Legal f4 h (.add i nip ch) := ⟨fun _ => hst, hch, fun e => by omega⟩
  have hnc : NoCollision h (.add i nip ch) := contiguous_not_collides h.K hrr.2
  have hr' : ReachNP f4 n (step f4 h (.add i nip ch)) := .step h _ hr hleg (by simp)
  obtain ⟨h', h1, r, he, hg', ha, hcase⟩ := add_good f4 hf h (by omega) hg i nip ch hleg hnc hi
  rcases hcase with ⟨-, rfl⟩ | ⟨hfull, -⟩
  · have hstep : step f4 h1 (.add i nip ch) = h' := by simp only [step]; rw [he]
    have hrow : r = n - 1 := by
      have hm : r ∈ h'.K := ha.perm.mem_iff.2 List.mem_cons_self
      have h1' := hg'.rows r hm
      rw [ha.nMax, hnm.1] at h1'
      by_contra hne
      exact ha.fresh ((hrr.2 r).2 (by omega))
    subst hrow
    have hm : n - 1 ∈ (step f4 h1 (.add i nip ch)).K := by
      rw [hstep]; exact ha.perm.mem_iff.2 List.mem_cons_self
    obtain ⟨h2, h3⟩ := last_row_stays f4 hf n hn ops _ hr' hm hops hfew
    refine List.mem_map.2 ⟨n - 1, h2, h3.trans ?_⟩
    rw [hstep, ha.row]
    rfl
  · omega

/-! ## The choice with the actual differences -/

/-- The number in a record. -/
def number (x : PyFloat) : ℚ := (finiteOf x).getD 0

/-- The rows of a set in ascending order. -/
def ascending (S : Finset Nat) : List Nat := (List.range (S.sup id + 1)).filter fun r => decide (r ∈ S)

theorem ascending_spec (S : Finset Nat) : (ascending S).Nodup ∧ (ascending S).toFinset = S := by
  refine ⟨List.nodup_range.filter _, ?_⟩
  ext r
  simp only [ascending, List.mem_toFinset, List.mem_filter, List.mem_range, decide_eq_true_eq]
  exact ⟨fun h => h.2, fun h => ⟨Nat.lt_succ_of_le (Finset.le_sup (f := id) h), h⟩⟩

/-- What the finder chooses for histories of one parameter when it examines all pairs: the rows are those of the history,
the listing of the eligible rows is the ascending one, the limit on the number of pairs is one that is not reached. -/
def actual (h : Hist) (pen : Nat → Nat → ℚ) (S : Finset Nat) : Option Nat :=
  (Store.call (n := 1) ⟨fun r c => if c = 0 then number (h.X r).sse else number ((h.X r).values.headD .nan),
    S, h.cpf.Kn, none⟩ (ascending S) (S.card ^ 2 + 1) [] pen).1

theorem actual_fromFinder (h : Hist) (pen : Nat → Nat → ℚ) : FromFinder (actual h pen) := by
  intro S hS
  obtain ⟨hn, hl⟩ := ascending_spec S
  refine ⟨ascending S, S.card ^ 2 + 1, [], _, hn, hl, Nat.succ_pos _, ?_, rfl⟩
  intro hle
  exfalso
  rw [← List.toFinset_card_of_nodup hn, hl] at hle
  have h1 : S.card * (S.card - 1) / 2 ≤ S.card * (S.card - 1) := Nat.div_le_self _ _
  have h2 : S.card * (S.card - 1) ≤ S.card * S.card := Nat.mul_le_mul_left _ (Nat.sub_le _ _)
  rw [← Nat.pow_two] at h2
  omega

/-- An individual with one value. -/
def one (score value : ℚ) (key : Int) : Ind := ⟨.fin score, [.fin value], some key⟩

/-- The addition of a member, with the finder of a history. -/
def enter (h : Hist) (i : Ind) : Op := .add i false (actual h fun _ _ => 1)

/-- Four individuals that were in the population for a while. -/
def four : List Op :=
  [enter (init 4) (one 1 0 1), enter (init 4) (one (9 / 8) (1 / 16) 2), enter (init 4) (one 50 100 3),
    enter (init 4) (one 100 200 4), .notInPop (one 1 0 1), .notInPop (one (9 / 8) (1 / 16) 2),
    .notInPop (one 50 100 3), .notInPop (one 100 200 4)]

/-- A history of capacity four that is full. -/
def full : Hist := run Single.toSingle (init 4) four

/-- What is left when one more individual is added. -/
def after (h : Hist) (i : Ind) : List Row := records (run Single.toSingle h [enter h i])

theorem storable_one (score value : ℚ) (key : Int) (h : (stored Single.toSingle (one score value key)).finite = true) :
    Storable Single.toSingle (one score value key) := ⟨h, rfl⟩

theorem four_usual : ∀ op ∈ four, Usual Single.toSingle op := by
  intro op hop
  simp only [four, List.mem_cons, List.not_mem_nil, or_false] at hop
  rcases hop with rfl | rfl | rfl | rfl | rfl | rfl | rfl | rfl
  all_goals first
    | trivial
    | exact ⟨fun _ => storable_one _ _ _ (by decide +kernel), actual_fromFinder _ _⟩

/-- C131: the documentation of `N_max` says that a full history removes the record with the highest score to make room.  It
does not: here all four records may go, the new individual is better than the worst of them, and it is the best one that is
removed, because it is the lower row of the closest pair. -/
theorem C131_best_goes_worst_stays :
    ∃ (ops : List Op) (best worst new : Ind), (∀ op ∈ ops, Usual Single.toSingle op) ∧
      let h := run Single.toSingle (init 4) ops
      (records h).length = 4 ∧ h.Kp = ∅ ∧
      (records h).head? = some (stored Single.toSingle best) ∧
      (records h).getLast? = some (stored Single.toSingle worst) ∧
      new.sse.lt worst.sse = true ∧ best.sse.lt new.sse = true ∧
      stored Single.toSingle best ∉ after h new ∧ stored Single.toSingle worst ∈ after h new ∧
      stored Single.toSingle new ∈ after h new := by
  refine ⟨four, one 1 0 1, one 100 200 4, one 2 50 5, four_usual, ?_⟩
  decide +kernel

namespace Demo

/-- The state when three individuals were added and left the population. -/
def three : Hist := run Single.toSingle (init 4) (four.take 3 ++ (four.drop 4).take 3)

theorem usual_reach (ops : List Op) (h : Hist) (hr : ReachNP Single.toSingle 4 h)
    (hops : ∀ op ∈ ops, Usual Single.toSingle op) (hfew : ∀ k, (run Single.toSingle h (ops.take k)).Kp.card < 4) :
    ReachNP Single.toSingle 4 (run Single.toSingle h ops) := by
  induction ops generalizing h with
  | nil => exact hr
  | cons op ops ih =>
    have hop := hops op (by simp)
    refine ih (step Single.toSingle h op) ?_ (fun o ho => hops o (List.mem_cons_of_mem _ ho)) (fun k => hfew (k + 1))
    have hnm := reach_nMax (reachNP_reach Single.C130_is_single hr).1
    cases op with
    | add i nip ch =>
      exact .step h _ hr ⟨hop.1, finder_chooser hop.2, fun _ => by
        have : h.Kp.card < 4 := hfew 0
        omega⟩ (by simp)
    | notInPop i => exact .step h _ hr trivial (by simp)
    | notInPopRow r => exact absurd hop (by simp [Usual])
    | purgePop => exact absurd hop (by simp [Usual])
    | clear => exact absurd hop (by simp [Usual])

theorem three_reach : ReachNP Single.toSingle 4 three := by
  apply usual_reach _ _ (.init (by norm_num))
  · intro op hop
    apply four_usual
    rw [List.mem_append] at hop
    rcases hop with h | h
    · exact List.mem_of_mem_take h
    · exact List.mem_of_mem_drop (List.mem_of_mem_take h)
  · intro k
    match k with
    | 0 | 1 | 2 | 3 | 4 | 5 => decide +kernel
    | k + 6 => rw [List.take_of_length_le (by simp [four])]; decide +kernel

example := C131_filling_record_stays Single.toSingle Single.C130_is_single 4 (by norm_num) three three_reach
  (by decide +kernel) (one 100 200 4) true highest (by decide) (storable_one _ _ _ (by decide +kernel)) highest_chooser
  [enter three (one 2 50 5)]
  (by
    intro op hop
    rw [List.mem_singleton.1 hop]
    exact ⟨fun _ => storable_one _ _ _ (by decide +kernel), actual_fromFinder _ _⟩)
  (by
    intro k
    match k with
    | 0 => decide +kernel
    | k + 1 => rw [List.take_of_length_le (by simp)]; decide +kernel)

theorem full_reach : ReachNP Single.toSingle 4 (run Single.toSingle three [.add (one 100 200 4) true highest]) :=
  .step three (.add (one 100 200 4) true highest) three_reach ⟨fun _ => storable_one _ _ _ (by decide +kernel), highest_chooser, by decide +kernel⟩ nofun

example := C131_lower_row_goes_partial Single.toSingle Single.C130_is_single 4 (by norm_num) _ full_reach
  (by decide +kernel) (by decide +kernel) (one 2 50 5) true (actual full fun _ _ => 1) (actual_fromFinder _ _) (by decide)
  (storable_one _ _ _ (by decide +kernel))

end Demo
end Eviction
end Ade
