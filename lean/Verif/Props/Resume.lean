import Verif.Model.Resume
import Verif.Props.PopHistory
import Verif.Props.HistorySave

/-!
# Property C118: going on with a saved population again and again
-/

set_option autoImplicit false

namespace Ade
namespace Resume
open History PopHistory

/-- Proper use of a population of at most `Np` members: new individuals are storable and differ (in hash) from the other
members. -/
def Fit (f4 : PyFloat → PyFloat) (Np : ℕ) (s : PH) : PopHistory.Op → Prop
  | .append i ch => (i.sse.isFinite = true → Storable f4 i) ∧ i.key.isSome = true ∧ Chooser ch ∧
      i.key ∉ s.members.map Ind.key ∧ s.members.length + 1 ≤ Np
  | .assign k i ch => (i.sse.isFinite = true → Storable f4 i) ∧ i.key.isSome = true ∧ Chooser ch ∧
      k < s.members.length ∧ i.key ∉ (s.members.eraseIdx k).map Ind.key
  | .record i ch => (i.sse.isFinite = true → Storable f4 i) ∧ Chooser ch
  | .clear => True

/-- States of a population of at most `Np` members with a history of capacity `n` that has been saved and loaded `S` times,
each time with any hash function and any limits, and used properly before, in between and afterwards. -/
inductive Life (f4 : PyFloat → PyFloat) (n Np : ℕ) : ℕ → PH → Prop
  | init : Life f4 n Np 0 ⟨[], init n⟩
  | use (S : ℕ) (s : PH) (op : PopHistory.Op) : Life f4 n Np S s → Fit f4 Np s op →
      Life f4 n Np S (PopHistory.step f4 s op)
  | resume (S : ℕ) (s s' : PH) (hash : Hash) (lim : List PyFloat → List PyFloat) (lp ln : List ℕ) : Life f4 n Np S s →
      lp.toFinset = s.hist.Kp → ln.toFinset = s.hist.Kn → Resume.resume s hash lim lp ln = some s' →
      Life f4 n Np (S + 1) s'

/-- Rows found by hash: `rs` lists the hashes of members that the history knows, each with its row, and `C` bounds the number
of protected rows besides. -/
structure Track (C : ℕ) (members : List Ind) (h : Hist) (rs : List (Int × ℕ)) : Prop where
  keys : (rs.map Prod.fst).Nodup
  mem : ∀ p ∈ rs, some p.1 ∈ members.map Ind.key
  kr : ∀ p ∈ rs, h.kr p.1 = some p.2
  card : h.Kp.card ≤ C + rs.length
  inj : ∀ k k' r, h.kr k = some r → h.kr k' = some r → k = k'
  prot : ∀ k r, h.kr k = some r → r ∈ h.Kp

theorem Track.length_le {C : ℕ} {members : List Ind} {h : Hist} {rs : List (Int × ℕ)} (t : Track C members h rs) :
    rs.length ≤ members.length := by
  have h1 : (rs.map fun p => some p.1).Nodup := by
    have : (rs.map fun p => some p.1) = (rs.map Prod.fst).map some := by simp
    rw [this]
    exact t.keys.map (Option.some_injective _)
  have h2 : (rs.map fun p => some p.1) ⊆ members.map Ind.key := by
    intro x hx
    obtain ⟨p, hp, rfl⟩ := List.mem_map.1 hx
    exact t.mem p hp
  simpa using (List.subperm_of_subset h1 h2).length_le

theorem Track.mono {C : ℕ} {members members' : List Ind} {h : Hist} {rs : List (Int × ℕ)} (t : Track C members h rs)
    (hm : ∀ k, some k ∈ members.map Ind.key → some k ∈ members'.map Ind.key) : Track C members' h rs :=
  ⟨t.keys, fun p hp => hm _ (t.mem p hp), t.kr, t.card, t.inj, t.prot⟩

/-- Adding a new member. -/
theorem track_add (f4 : PyFloat → PyFloat) (hf : IsSingle f4) (C : ℕ) (i : Ind) (members members' : List Ind) (h : Hist)
    (hpos : 0 < h.nMax) (hg : Good f4 h) (rs : List (Int × ℕ)) (t : Track C members h rs) (ch : Finset ℕ → Option ℕ)
    (hl : Legal f4 h (.add i false ch)) (hnc : NoCollision h (.add i false ch)) (hk : i.key.isSome = true)
    (hn : i.key ∉ members.map Ind.key) (hm : ∀ k, some k ∈ members.map Ind.key → some k ∈ members'.map Ind.key)
    (hi : i.key ∈ members'.map Ind.key) :
    ∃ rs', Track C members' (add f4 h i false ch).1 rs' := by
  cases hfin : i.sse.isFinite with
  | false => rw [add_skipped f4 h i false ch hfin]; exact ⟨rs, t.mono hm⟩
  | true =>
    obtain ⟨key, hkey⟩ := Option.isSome_iff_exists.1 hk
    obtain ⟨h', h1, r, he, _, ha, hcase⟩ := add_good f4 hf h hpos hg i false ch hl hnc hfin
    rw [he]
    have hkp1 : h1.Kp = h.Kp ∧ h1.kr = h.kr ∧ r ∉ h.Kp := by
      rcases hcase with ⟨_, rfl⟩ | ⟨_, hv, _, hp⟩
      · exact ⟨rfl, rfl, fun hr => ha.fresh (hg.kp r hr)⟩
      · exact ⟨hp.kp, hp.kr, ((hg.cK r).1 hv).2⟩
    have hkp : h'.Kp = insert r h.Kp := by rw [ha.kp, hkp1.1]; rfl
    have hkr : ∀ k, h'.kr k = if k = key then some r else h.kr k := by
      intro k
      rw [ha.kr, hkp1.2.1, hkey]
      by_cases e : k = key
      · subst e; simp
      · have : ¬ key = k := fun e' => e e'.symm
        simp [e, this]
    have hold : ∀ p ∈ rs, p.1 ≠ key := fun p hp e => hn (by rw [hkey, ← e]; exact t.mem p hp)
    refine ⟨(key, r) :: rs, ?_, ?_, ?_, ?_, ?_, ?_⟩
    · rw [List.map_cons, List.nodup_cons]
      refine ⟨fun hm' => ?_, t.keys⟩
      obtain ⟨p, hp, hpe⟩ := List.mem_map.1 hm'
      exact hold p hp hpe
    · intro p hp
      rcases List.mem_cons.1 hp with rfl | hp
      · rw [← hkey]; exact hi
      · exact hm _ (t.mem p hp)
    · intro p hp
      rw [hkr]
      rcases List.mem_cons.1 hp with rfl | hp
      · simp
      · rw [if_neg (hold p hp)]; exact t.kr p hp
    · rw [hkp, Finset.card_insert_of_notMem hkp1.2.2, List.length_cons]
      have := t.card
      omega
    · intro k k' x h1 h2
      rw [hkr] at h1 h2
      split at h1 <;> split at h2
      · rename_i e1 e2; rw [e1, e2]
      · rw [← Option.some.inj h1] at h2
        exact absurd (t.prot _ _ h2) hkp1.2.2
      · rw [← Option.some.inj h2] at h1
        exact absurd (t.prot _ _ h1) hkp1.2.2
      · exact t.inj _ _ _ h1 h2
    · intro k x h1
      rw [hkr] at h1
      rw [hkp, Finset.mem_insert]
      split at h1
      · exact .inl (Option.some.inj h1).symm
      · exact .inr (t.prot _ _ h1)

/-- A member leaves. -/
theorem track_leave (f4 : PyFloat → PyFloat) (C : ℕ) (members : List Ind) (k : ℕ) (hk : k < members.length) (h : Hist)
    (hg : Good f4 h) (rs : List (Int × ℕ)) (t : Track C members h rs) :
    ∃ rs', Track C (members.eraseIdx k) (notInPop h members[k]) rs' := by
  have hmem : ∀ key, some key ∈ members.map Ind.key → members[k].key ≠ some key →
      some key ∈ (members.eraseIdx k).map Ind.key := by
    intro key hm hne
    obtain ⟨m, hm, hmk⟩ := List.mem_map.1 hm
    have hp := List.getElem_cons_eraseIdx_perm (l := members) hk
    rcases List.mem_cons.1 (hp.mem_iff.2 hm) with rfl | h'
    · exact absurd hmk hne
    · exact List.mem_map.2 ⟨m, h', hmk⟩
  unfold notInPop
  rw [if_neg (by simp [hg.held])]
  cases hkey : members[k].key with
  | none =>
    refine ⟨rs, t.keys, fun p hp => hmem _ (t.mem p hp) (by simp [hkey]), t.kr, t.card, t.inj, t.prot⟩
  | some key =>
    dsimp only
    cases hkr : h.kr key with
    | none =>
      refine ⟨rs, t.keys, fun p hp => hmem _ (t.mem p hp) ?_, t.kr, t.card, t.inj, t.prot⟩
      rw [hkey]
      intro e
      have := t.kr p hp
      rw [← Option.some.inj e, hkr] at this
      cases this
    | some r =>
      dsimp only
      have hrp := t.prot _ _ hkr
      rw [leavePop_eq f4 _ (good_forget f4 h hg key).toGood0 r (hg.kp r hrp)]
      have hother : ∀ k' x, k' ≠ key → h.kr k' = some x → x ≠ r := by
        intro k' x hne hx e
        rw [e] at hx
        exact hne (t.inj _ _ _ hx hkr)
      refine ⟨rs.filter fun p => decide (p.1 ≠ key), ?_, ?_, ?_, ?_, ?_, ?_⟩
      · exact t.keys.sublist (List.filter_sublist.map _)
      · intro p hp
        obtain ⟨hp, hne⟩ := List.mem_filter.1 hp
        refine hmem _ (t.mem p hp) ?_
        rw [hkey]
        intro e
        simp [Option.some.inj e] at hne
      · intro p hp
        obtain ⟨hp, hne⟩ := List.mem_filter.1 hp
        simp only [decide_eq_true_eq] at hne
        simp only [if_neg hne]
        exact t.kr p hp
      · simp only
        rw [Finset.card_erase_of_mem hrp]
        have hcard := t.card
        have hpos : 0 < h.Kp.card := Finset.card_pos.2 ⟨r, hrp⟩
        have hlen : rs.length ≤ (rs.filter fun p => decide (p.1 ≠ key)).length + 1 := by
          have hnd := t.keys
          clear t hcard
          induction rs with
          | nil => simp
          | cons p rs ih =>
            rw [List.map_cons, List.nodup_cons] at hnd
            by_cases e : p.1 = key
            · have : rs.filter (fun p => decide (p.1 ≠ key)) = rs := by
                rw [List.filter_eq_self]
                intro q hq
                simp only [decide_eq_true_eq]
                intro e'
                exact hnd.1 (List.mem_map.2 ⟨q, hq, by rw [e, e']⟩)
              rw [List.filter_cons_of_neg (by simp [e]), this, List.length_cons]
            · rw [List.filter_cons_of_pos (by simp [e])]
              have := ih hnd.2
              simp only [List.length_cons]
              omega
        omega
      · intro k1 k2 x h1 h2
        simp only at h1 h2
        split at h1
        · cases h1
        · split at h2
          · cases h2
          · exact t.inj _ _ _ h1 h2
      · intro k1 x h1
        simp only at h1 ⊢
        split at h1
        · cases h1
        · rename_i hne
          exact Finset.mem_erase.2 ⟨hother _ _ hne h1, t.prot _ _ h1⟩

/-- A losing challenger is recorded. -/
theorem track_record (f4 : PyFloat → PyFloat) (hf : IsSingle f4) (C : ℕ) (i : Ind) (members : List Ind) (h : Hist)
    (hpos : 0 < h.nMax) (hg : Good f4 h) (rs : List (Int × ℕ)) (t : Track C members h rs) (ch : Finset ℕ → Option ℕ)
    (hl : Legal f4 h (.add i true ch)) (hnc : NoCollision h (.add i true ch)) :
    Track C members (add f4 h i true ch).1 rs := by
  cases hfin : i.sse.isFinite with
  | false => rw [add_skipped f4 h i true ch hfin]; exact t
  | true =>
    obtain ⟨h', h1, r, he, _, ha, hcase⟩ := add_good f4 hf h hpos hg i true ch hl hnc hfin
    rw [he]
    have hkp1 : h1.Kp = h.Kp ∧ h1.kr = h.kr := by
      rcases hcase with ⟨_, rfl⟩ | ⟨_, hv, _, hp⟩
      · exact ⟨rfl, rfl⟩
      · exact ⟨hp.kp, hp.kr⟩
    have hkp : h'.Kp = h.Kp := by rw [ha.kp, hkp1.1]; rfl
    have hkr : h'.kr = h.kr := by
      funext k; rw [ha.kr, hkp1.2]; simp
    refine ⟨t.keys, t.mem, ?_, ?_, ?_, ?_⟩
    · simp only [hkr]; exact t.kr
    · simp only [hkp]; exact t.card
    · simp only [hkr]; exact t.inj
    · simp only [hkr, hkp]; exact t.prot

theorem life_inv (f4 : PyFloat → PyFloat) (hf : IsSingle f4) (n Np : ℕ) (h4 : 4 ≤ n) (hn : n ≤ 65536) (S : ℕ) (s : PH)
    (hl : Life f4 n Np S s) (hS : (S + 1) * Np < n) :
    ReachNP f4 n s.hist ∧ s.members.length ≤ Np ∧ ∃ C rs, C ≤ S * Np ∧ Track C s.members s.hist rs := by
  have hnc : ∀ (h : Hist) i nip ch, ReachNP f4 n h → NoCollision h (.add i nip ch) :=
    fun h i nip ch hh => contiguous_not_collides h.K (reachNP_reach hf hh).2
  induction hl with
  | init =>
    refine ⟨.init (by omega), by simp, 0, [], by simp, ⟨by simp, by simp, by simp, by simp [init], ?_, ?_⟩⟩
    · intro k k' r h; simp [init] at h
    · intro k r h; simp [init] at h
  | use S s op _ hfit ih =>
    obtain ⟨hr, hlen, C, rs, hC, t⟩ := ih hS
    have hrr := reachNP_reach hf hr
    have hnm := reach_nMax hrr.1
    have hg := reach_good hf hrr.1
    have hexp : (S + 1) * Np = S * Np + Np := by rw [Nat.succ_mul]
    cases op with
    | append i ch =>
      obtain ⟨p1, p2, p3, p4, p5⟩ := hfit
      have h1 := t.card
      have h2 := t.length_le
      have hleg : Legal f4 s.hist (.add i false ch) := ⟨p1, p3, fun _ => ⟨.inr (by omega), by omega⟩⟩
      obtain ⟨rs', t'⟩ := track_add f4 hf C i s.members (s.members ++ [i]) s.hist (by omega) hg rs t ch hleg
        (hnc _ _ _ _ hr) p2 p4 (by intro k hk; simp only [List.map_append, List.mem_append]; exact .inl hk) (by simp)
      exact ⟨.step _ (.add i false ch) hr hleg (by simp), by simpa [PopHistory.step] using p5, C, rs', hC, t'⟩
    | assign k i ch =>
      obtain ⟨p1, p2, p3, p4, p5⟩ := hfit
      have hget : s.members[k]? = some s.members[k] := List.getElem?_eq_getElem p4
      simp only [PopHistory.step, hget]
      obtain ⟨rs1, t1⟩ := track_leave f4 C s.members k p4 s.hist hg rs t
      have hr2 : ReachNP f4 n (notInPop s.hist s.members[k]) := .step _ (.notInPop s.members[k]) hr trivial (by simp)
      have hrr2 := reachNP_reach hf hr2
      have hnm2 := reach_nMax hrr2.1
      have h1 := t1.card
      have h2 := t1.length_le
      have hle : (s.members.eraseIdx k).length ≤ s.members.length := List.length_eraseIdx_le ..
      have hleg : Legal f4 (notInPop s.hist s.members[k]) (.add i false ch) :=
        ⟨p1, p3, fun _ => ⟨.inr (by omega), by omega⟩⟩
      have hperm := (List.set_perm_cons_eraseIdx p4 i)
      obtain ⟨rs', t'⟩ := track_add f4 hf C i _ (s.members.set k i) _ (by omega) (reach_good hf hrr2.1) rs1 t1 ch hleg
        (hnc _ _ _ _ hr2) p2 p5 (by
          intro key hk
          rw [(hperm.map Ind.key).mem_iff]
          exact List.mem_cons_of_mem _ hk) (by rw [(hperm.map Ind.key).mem_iff]; simp)
      exact ⟨.step _ (.add i false ch) hr2 hleg (by simp), by simpa using hlen, C, rs', hC, t'⟩
    | record i ch =>
      obtain ⟨p1, p3⟩ := hfit
      have h1 := t.card
      have h2 := t.length_le
      have hleg : Legal f4 s.hist (.add i true ch) := ⟨p1, p3, fun _ => ⟨.inr (by omega), by omega⟩⟩
      exact ⟨.step _ (.add i true ch) hr hleg (by simp), hlen, C, rs, hC,
        track_record f4 hf C i _ _ (by omega) hg rs t ch hleg (hnc _ _ _ _ hr)⟩
    | clear =>
      refine ⟨.step _ .clear hr trivial (by simp), by simp [PopHistory.step], 0, [], by omega, ?_⟩
      refine ⟨by simp, by simp, by simp, by simp [PopHistory.step, History.clear, hg.held], ?_, ?_⟩
      · intro k k' r h; simp [PopHistory.step, History.clear, hg.held] at h
      · intro k r h; simp [PopHistory.step, History.clear, hg.held] at h
  | resume S s s' hash lim lp ln _ hlp hln hres ih =>
    have hexp : (S + 1 + 1) * Np = (S + 1) * Np + Np := by rw [Nat.succ_mul]
    have hexp' : (S + 1) * Np = S * Np + Np := by rw [Nat.succ_mul]
    obtain ⟨hr, hlen, C, rs, hC, t⟩ := ih (by omega)
    have hrt := C44_round_trip_partial f4 hf n hn s.hist (reachNP_reach hf hr).1 lp ln hlp hln
    unfold Resume.resume at hres
    rw [hrt] at hres
    obtain rfl := Option.some.inj hres
    refine ⟨hr, by simpa using hlen, s.hist.Kp.card, [], ?_, ?_⟩
    · have h1 := t.card
      have h2 := t.length_le
      omega
    · exact ⟨by simp, by simp, by simp, by simp, t.inj, t.prot⟩

/-- C118, the part that holds: a population of at most `Np` members that was saved and loaded `S` times protects at most
`(S + 1) * Np` records; as long as that is less than the capacity of the history, the history is not blocked, and every
addition of a storable individual is completed. -/
theorem C118_bounded_partial (f4 : PyFloat → PyFloat) (hf : IsSingle f4) (n Np : ℕ) (h4 : 4 ≤ n) (hn : n ≤ 65536) (S : ℕ)
    (s : PH) (hl : Life f4 n Np S s) (hS : (S + 1) * Np < n) :
    s.hist.held = false ∧ s.hist.Kp.card ≤ (S + 1) * Np ∧
      ∀ (i : Ind) (nip : Bool) (ch : Finset ℕ → Option ℕ), Storable f4 i → i.sse.isFinite = true → Chooser ch →
        ∃ r, (add f4 s.hist i nip ch).2 = .row r ∧ (add f4 s.hist i nip ch).1.X r = stored f4 i := by
  obtain ⟨hr, hlen, C, rs, hC, t⟩ := life_inv f4 hf n Np h4 hn S s hl hS
  have hrr := reachNP_reach hf hr
  have hnm := reach_nMax hrr.1
  have hg := reach_good hf hrr.1
  have h1 := t.card
  have h2 := t.length_le
  have hexp : (S + 1) * Np = S * Np + Np := by rw [Nat.succ_mul]
  refine ⟨hg.held, by omega, ?_⟩
  intro i nip ch hst hfin hch
  have hleg : Legal f4 s.hist (.add i nip ch) := ⟨fun _ => hst, hch, fun _ => ⟨.inr (by omega), by omega⟩⟩
  obtain ⟨_, h | ⟨_, r, h1, _, h2⟩⟩ := C39_add_completes_partial f4 hf n s.hist hrr.1 i nip ch hleg
    (contiguous_not_collides s.hist.K hrr.2)
  · rw [hfin] at h; cases h.1
  · exact ⟨r, h1, h2⟩

/-- What loading yields: the members as they are computed anew, and the history as it was, map from hashes to rows included. -/
theorem resume_eq (f4 : PyFloat → PyFloat) (hf : IsSingle f4) (n : ℕ) (hn : n ≤ 65536) (s : PH)
    (hr : History.Reach f4 n s.hist) (hash : Hash) (lim : List PyFloat → List PyFloat) (lp ln : List ℕ)
    (hlp : lp.toFinset = s.hist.Kp) (hln : ln.toFinset = s.hist.Kn) :
    Resume.resume s hash lim lp ln = some ⟨s.members.map (reload hash lim), s.hist⟩ := by
  unfold Resume.resume
  rw [C44_round_trip_partial f4 hf n hn s.hist hr lp ln hlp hln]

/-- One session with two members, a second one in which the first of them is replaced. -/
def first : PH := PopHistory.run toy ⟨[], init 10⟩ [.append (mk 1 10) highest, .append (mk 2 20) highest]

def second : PH :=
  PopHistory.step toy ⟨first.members.map (reload (fun _ _ => some 30) id), first.hist⟩ (.assign 0 (mk 3 40) highest)

theorem first_reach : History.Reach toy 10 first.hist := by
  unfold first PopHistory.run
  refine (reachNP_reach toy_single (.step _ (.add (mk 2 20) false highest) (.step _ (.add (mk 1 10) false highest)
    (.init (by decide)) ?_ (by simp)) ?_ (by simp))).1
  · exact ⟨fun _ => ⟨by decide +kernel, rfl⟩, highest_chooser, fun e => absurd e (by decide)⟩
  · exact ⟨fun _ => ⟨by decide +kernel, rfl⟩, highest_chooser, fun e => absurd e (by decide +kernel)⟩

theorem second_life : Life toy 10 2 1 second := by
  have h1 : Life toy 10 2 0 first := by
    unfold first PopHistory.run
    simp only [List.foldl_cons, List.foldl_nil]
    refine Life.use 0 (PopHistory.step toy ⟨[], init 10⟩ (.append (mk 1 10) highest)) (.append (mk 2 20) highest) (Life.use 0 _ _ .init ?_) ?_
    · exact ⟨fun _ => ⟨by decide +kernel, rfl⟩, rfl, highest_chooser, by simp, by decide +kernel⟩
    · exact ⟨fun _ => ⟨by decide +kernel, rfl⟩, rfl, highest_chooser, by decide +kernel, by decide +kernel⟩
  have h2 := Life.resume 0 first ⟨first.members.map (reload (fun _ _ => some 30) id), first.hist⟩ (fun _ _ => some 30) id
    [0, 1] [] h1 (by decide +kernel) (by decide +kernel)
    (resume_eq toy toy_single 10 (by decide) first first_reach _ _ _ _ (by decide +kernel) (by decide +kernel))
  refine Life.use 1 ⟨first.members.map (reload (fun _ _ => some 30) id), first.hist⟩ _ h2 ?_
  exact ⟨fun _ => ⟨by decide +kernel, rfl⟩, rfl, highest_chooser, by decide +kernel, by decide +kernel⟩

example := C118_bounded_partial toy toy_single 10 2 (by decide) (by decide) 1 second second_life (by decide)

/-- The record of the member that was replaced is still protected. -/
example : second.hist.Kp = {0, 1, 2} ∧ second.members.length = 2 := by decide +kernel

/-- C118, where nothing is lost: with the same hash function (the same process, or a fixed seed) and limits that move no
member, loading yields the population and the history that were saved. -/
theorem C118_same_hash (f4 : PyFloat → PyFloat) (hf : IsSingle f4) (n : ℕ) (hn : n ≤ 65536) (s : PH)
    (hr : History.Reach f4 n s.hist) (hash : Hash) (lim : List PyFloat → List PyFloat)
    (hk : ∀ m ∈ s.members, m.key = hash m.sse m.values) (hlim : ∀ m ∈ s.members, lim m.values = m.values) (lp ln : List ℕ)
    (hlp : lp.toFinset = s.hist.Kp) (hln : ln.toFinset = s.hist.Kn) :
    Resume.resume s hash lim lp ln = some s := by
  rw [resume_eq f4 hf n hn s hr hash lim lp ln hlp hln]
  have : s.members.map (reload hash lim) = s.members := by
    conv_rhs => rw [← List.map_id s.members]
    apply List.map_congr_left
    intro m hm
    simp only [reload, hlim m hm, ← hk m hm, id]
  simp only [this]

/-- A hash function for the example. -/
def someHash : Hash := fun sse _ => if sse = .fin 1 then some 10 else some 20

example := C118_same_hash toy toy_single 10 (by decide) first
  first_reach
  someHash id (by decide +kernel) (by decide +kernel) [1, 0] [] (by decide +kernel) (by decide +kernel)

/-! ## Negation -/

/-- The hash functions of the counterexample: in the process number `j` every individual has the hash `2 * j + 1`; this is a
legitimate hash function, and no two individuals of the same process are involved. -/
def oddHash (j : ℕ) : Hash := fun _ _ => some (2 * j + 1)

/-- After `j` sessions in each of which the only member is replaced, all `j + 1` records are protected. -/
structure Stale (f4 : PyFloat → PyFloat) (n j : ℕ) (s : PH) : Prop where
  one : s.members.length = 1
  reach : ReachNP f4 n s.hist
  full : s.hist.K.length = j + 1
  card : s.hist.Kp.card = j + 1
  even : ∀ k, s.hist.kr (2 * k + 1) = none

theorem stale_step (f4 : PyFloat → PyFloat) (hf : IsSingle f4) (n : ℕ) (hn : n ≤ 65536) (j : ℕ) (hj : j + 1 < n) (s : PH)
    (hs : Stale f4 n j s) (hl : Life f4 n 1 j s) (i : Ind) (hi : Storable f4 i) (hfin : i.sse.isFinite = true)
    (hk : i.key = some (2 * ((j : Int) + 1))) :
    ∃ s', Life f4 n 1 (j + 1) s' ∧ Stale f4 n (j + 1) s' := by
  have hrr := reachNP_reach hf hs.reach
  have hnm := reach_nMax hrr.1
  have hg := reach_good hf hrr.1
  have hload : Resume.resume s (oddHash j) id s.hist.Kp.toList s.hist.Kn.toList =
      some ⟨s.members.map (reload (oddHash j) id), s.hist⟩ := by
    unfold Resume.resume
    rw [C44_round_trip_partial f4 hf n hn s.hist hrr.1 _ _ (by simp) (by simp)]
  have hl1 := Life.resume j s _ (oddHash j) id _ _ hl (by simp) (by simp) hload
  obtain ⟨m, hm⟩ := List.length_eq_one_iff.1 hs.one
  have hfit : Fit f4 1 ⟨s.members.map (reload (oddHash j) id), s.hist⟩ (.assign 0 i highest) :=
    ⟨fun _ => hi, hi.2, highest_chooser, by simp [hm], by simp [hm]⟩
  refine ⟨_, Life.use _ _ _ hl1 hfit, ?_⟩
  have hleave : notInPop s.hist (reload (oddHash j) id m) = s.hist := by
    unfold notInPop
    rw [if_neg (by simp [hg.held])]
    simp only [reload, oddHash, hs.even]
  have hstep : PopHistory.step f4 ⟨s.members.map (reload (oddHash j) id), s.hist⟩ (.assign 0 i highest) =
      ⟨[i], (add f4 s.hist i false highest).1⟩ := by
    simp [PopHistory.step, hm, hleave]
  rw [hstep]
  have hleg : Legal f4 s.hist (.add i false highest) := ⟨fun _ => hi, highest_chooser, fun e => by
    have := hs.full; omega⟩
  have hnc : NoCollision s.hist (.add i false highest) := contiguous_not_collides s.hist.K hrr.2
  obtain ⟨h', h1, r, he, _, ha, hcase⟩ := add_good f4 hf s.hist (by omega) hg i false highest hleg hnc hfin
  have hcase : h1 = s.hist := by
    rcases hcase with ⟨_, e⟩ | ⟨e, _⟩
    · exact e
    · have := hs.full; omega
  subst hcase
  refine ⟨rfl, .step _ (.add i false highest) hs.reach hleg (by simp), ?_, ?_, ?_⟩
  · rw [he]; have := ha.perm.length_eq; simpa [hs.full] using this
  · rw [he]
    simp only
    rw [ha.kp, if_neg (by simp), Finset.card_insert_of_notMem fun h => ha.fresh (hg.kp r h), hs.card]
  · intro k
    rw [he]
    simp only
    rw [ha.kr, if_neg, hs.even]
    rintro ⟨_, e⟩
    rw [hk] at e
    have := Option.some.inj e
    omega

/-- C118, negation: whatever the capacity of the history, a population of a single member, saved and loaded often enough by
new processes that replace the member once each, ends up with a history that refuses the next individual with an exception
and is blocked from then on. -/
theorem C118_blocks (f4 : PyFloat → PyFloat) (hf : IsSingle f4) (n : ℕ) (hpos : 0 < n) (hn : n ≤ 65536)
    (hst : ∀ k : ℕ, Storable f4 (mk 1 k)) :
    ∃ s : PH, Life f4 n 1 (n - 1) s ∧ s.members.length = 1 ∧
      ∀ (i : Ind) (nip : Bool) (ch : Finset ℕ → Option ℕ), ch ∅ = none → i.sse.isFinite = true →
        (add f4 s.hist i nip ch).2 = .error ∧ (add f4 s.hist i nip ch).1.held = true := by
  have key : ∀ j, j + 1 ≤ n → ∃ s, Life f4 n 1 j s ∧ Stale f4 n j s := by
    intro j
    induction j with
    | zero =>
      intro _
      have hfit : Fit f4 1 ⟨[], init n⟩ (.append (mk 1 0) highest) :=
        ⟨fun _ => hst 0, rfl, highest_chooser, by simp, by simp⟩
      refine ⟨_, Life.use 0 _ _ .init hfit, ?_⟩
      have hleg : Legal f4 (init n) (.add (mk 1 0) false highest) := ⟨fun _ => hst 0, highest_chooser, fun e => by
        simp [init] at e; omega⟩
      have hadd : add f4 (init n) (mk 1 0) false highest =
          (⟨n, 1, fun r' => if r' = 0 then rowOf f4 (mk 1 0) else (init n).X r', [0], {0}, ∅,
            fun k' => if k' = 0 then some 0 else none, ClosestPair.Finder.empty, false⟩, .row 0) := by
        simp [add, mk, PyFloat.isFinite, init, finishAdd, writeRecord, hpos, ClosestPair.Finder.clearRow,
          ClosestPair.Finder.empty]
      refine ⟨rfl, .step _ (.add (mk 1 0) false highest) (.init hpos) hleg (by simp), ?_, ?_, ?_⟩
      · simp [PopHistory.step, hadd]
      · simp [PopHistory.step, hadd]
      · intro k
        simp only [PopHistory.step, hadd]
        rw [if_neg (by omega)]
    | succ j ih =>
      intro hj
      obtain ⟨s, hl, hs⟩ := ih (by omega)
      have h1 := hst (2 * (j + 1))
      exact stale_step f4 hf n hn j (by omega) s hs hl (mk 1 (2 * (j + 1) : ℕ)) h1 rfl (by simp [mk])
  obtain ⟨s, hl, hs⟩ := key (n - 1) (by omega)
  refine ⟨s, hl, hs.one, ?_⟩
  intro i nip ch hch hfin
  have hrr := reachNP_reach hf hs.reach
  have hnm := reach_nMax hrr.1
  have hg := reach_good hf hrr.1
  apply C39_full_of_members_fails f4 s.hist i nip ch hch hfin hg.held
  · rw [hs.full]; omega
  · omega
  · have hsub : s.hist.K.toFinset = s.hist.Kp := by
      symm
      apply Finset.eq_of_subset_of_card_le
      · intro r hr; rw [List.mem_toFinset]; exact hg.kp r hr
      · rw [List.toFinset_card_of_nodup hg.nodup, hs.full, hs.card]
    ext r
    rw [hg.cK]
    simp only [Finset.notMem_empty, iff_false, not_and, not_not]
    intro hr
    rw [← hsub]
    simpa using hr

example := C118_blocks toy toy_single 3 (by decide) (by decide) (fun _ => ⟨by show (stored toy (mk 1 0)).finite = true; decide +kernel, rfl⟩)

/-- C118, negation with new bounds only: the same process loads a population with bounds that move a member, whose hash
is another one then; when it has been replaced, its old record is still protected. -/
theorem C118_new_bounds :
    ∃ (hash : Hash) (lim : List PyFloat → List PyFloat) (s s' : PH),
      s = PopHistory.run id ⟨[], init 10⟩ [.append ⟨.fin 1, [.fin 7], hash (.fin 1) [.fin 7]⟩ highest] ∧
      lim [.fin 7] = [.fin 5] ∧ Resume.resume s hash lim [0] [] = some s' ∧
      s'.members = [⟨.fin 1, [.fin 5], hash (.fin 1) [.fin 5]⟩] ∧
      (PopHistory.step id s' (.assign 0 ⟨.fin (1 / 2), [.fin 4], hash (.fin (1 / 2)) [.fin 4]⟩ highest)).hist.Kp = {0, 1} := by
  refine ⟨fun _ v => if v = [.fin 7] then some 7 else if v = [.fin 5] then some 5 else some 4,
    fun v => if v = [.fin 7] then [.fin 5] else v, _, _, rfl, by decide +kernel, rfl, by decide +kernel, by decide +kernel⟩

end Resume
end Ade
