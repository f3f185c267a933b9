import Verif.Lemmas.Cases
import Verif.Model.Locks
import Mathlib.Data.List.Nodup
import Mathlib.Algebra.BigOperators.Group.Finset.Basic
import Mathlib.Algebra.Order.BigOperators.Group.Finset
import Mathlib.Data.Finset.Range
import Mathlib.Tactic.Linarith

/-!
# Property C101: locks of population members
-/

set_option autoImplicit false

namespace Ade
namespace Locks

/-! ## What one request does -/

/-- Acquisitions one after the other. -/
def acquireAll (s : State) (j : ℕ) (ks : List ℤ) : State := ks.foldl (fun s k => acquire s j k.toNat) s

theorem acquireAll_rest (j : ℕ) (ks : List ℤ) (s : State) : (acquireAll s j ks).n = s.n ∧ (acquireAll s j ks).next = s.next ∧
    (acquireAll s j ks).running = s.running := by
  induction ks generalizing s with
  | nil => exact ⟨rfl, rfl, rfl⟩
  | cons k ks ih => exact ih (acquire s j k.toNat)

theorem acquireAll_queue (j : ℕ) (ks : List ℤ) (s : State) (hnd : ks.Nodup) (h0 : ∀ k ∈ ks, 0 ≤ k) (p : ℕ) :
    (acquireAll s j ks).queue p = if (p : ℤ) ∈ ks then s.queue p ++ [j] else s.queue p := by
  induction ks generalizing s with
  | nil => rfl
  | cons k ks ih =>
    have hk := List.nodup_cons.1 hnd
    have h := ih (acquire s j k.toNat) hk.2 (fun x hx => h0 x (List.mem_cons_of_mem _ hx))
    refine Eq.trans h ?_
    have hk0 := h0 k List.mem_cons_self
    by_cases hp : p = k.toNat
    · subst hp
      have e : ((k.toNat : ℕ) : ℤ) = k := Int.toNat_of_nonneg hk0
      rw [e, if_neg hk.1, if_pos List.mem_cons_self]
      simp [acquire]
    · have e : (p : ℤ) ≠ k := by omega
      have hq : (acquire s j k.toNat).queue p = s.queue p := by simp [acquire, Function.update_of_ne hp]
      rw [hq]
      simp only [List.mem_cons, e, false_or]

theorem lockLoop_append (indices : List ℤ) (j : ℕ) (pre ks : List ℤ) (s : State) (acc : List ℕ)
    (h : ∀ k ∈ pre, indices.count k ≤ 1 ∧ 0 ≤ k ∧ k < s.n) :
    lockLoop indices j (pre ++ ks) s acc = lockLoop indices j ks (acquireAll s j pre) (acc ++ pre.map Int.toNat) := by
  induction pre generalizing s acc with
  | nil => simp [acquireAll]
  | cons k pre ih =>
    obtain ⟨h1, h2, h3⟩ := h k List.mem_cons_self
    have hp : position s.n k = some k.toNat := by simp [position, h2, h3]
    have e := ih (acquire s j k.toNat) (acc ++ [k.toNat]) (fun x hx => h x (List.mem_cons_of_mem _ hx))
    rw [List.cons_append, lockLoop, if_neg (by omega), if_neg (by omega), hp]
    refine Eq.trans e ?_
    simp [acquireAll]

theorem lock_careful (s : State) (hr : s.running = true) (indices : List ℤ) (hnd : indices.Nodup)
    (h : ∀ k ∈ indices, 0 ≤ k ∧ k < s.n) :
    lock s indices = ({ acquireAll s s.next indices with next := s.next + 1 }, .requested (indices.map Int.toNat)) := by
  have e := lockLoop_append indices s.next indices [] s []
    (fun k hk => ⟨by rw [List.count_eq_one_of_mem hnd hk], h k hk⟩)
  rw [List.append_nil] at e
  simp only [lock, hr, if_true, e, lockLoop, List.nil_append]

/-- C101: a request for different members is queued for the locks of these members and for no others, behind all requests
made before it. -/
theorem C101_request (s : State) (hr : s.running = true) (indices : List ℤ) (hnd : indices.Nodup)
    (h : ∀ k ∈ indices, 0 ≤ k ∧ k < s.n) :
    (lock s indices).2 = .requested (indices.map Int.toNat) ∧
      ∀ p, (lock s indices).1.queue p = if (p : ℤ) ∈ indices then s.queue p ++ [s.next] else s.queue p := by
  rw [lock_careful s hr indices hnd h]
  exact ⟨rfl, fun p => acquireAll_queue s.next indices s hnd (fun k hk => (h k hk).1) p⟩

/-- C101: when the population is not running, a request is granted at once and takes no lock. -/
theorem C101_not_running (s : State) (hr : s.running = false) (indices : List ℤ) : lock s indices = (s, .fired) := by
  simp [lock, hr]

/-! ## Careful use -/

/-- Invariant of careful use, apart from locks that nobody will give back. -/
structure Inv (n : ℕ) (u : Users) : Prop where
  run : u.locks.running = true
  size : u.locks.n = n
  mem : ∀ j p, p ∈ u.left j → j ∈ u.locks.queue p
  sorted : ∀ p, (u.locks.queue p).Pairwise (· < ·)
  below : ∀ p, ∀ j ∈ u.locks.queue p, j < u.locks.next
  sub : ∀ j, u.left j ⊆ u.asked j
  nodup : ∀ j, (u.left j).Nodup
  range : ∀ j, ∀ p ∈ u.asked j, p < n
  fresh : ∀ j, u.locks.next ≤ j → u.asked j = []

/-- The lock is held or waited for only by requests that will give it back. -/
def NoStray (u : Users) : Prop := ∀ p j, j ∈ u.locks.queue p → p ∈ u.left j

theorem inv_start (n : ℕ) : Inv n (start n) ∧ NoStray (start n) :=
  ⟨⟨rfl, rfl, by simp [start], by simp [start], by simp [start], by simp [start], by simp [start], by simp [start],
    by simp [start]⟩, by simp [NoStray, start]⟩

/-- A granted request is first in the queues of the locks it has not given back. -/
theorem head_of_fired {n : ℕ} {u : Users} (h : Inv n u) {j p : ℕ} (hp : p ∈ u.left j)
    (hf : fired u.locks j (u.asked j) = true) : ∃ t, u.locks.queue p = j :: t := by
  have hm := h.mem j p hp
  have hnt : j ∉ (u.locks.queue p).tail := by
    have := List.all_eq_true.1 hf p (h.sub j hp)
    simpa using this
  cases hq : u.locks.queue p with
  | nil => rw [hq] at hm; simp at hm
  | cons a t =>
    rw [hq] at hm hnt
    rcases List.mem_cons.1 hm with e | e
    · exact ⟨t, by rw [e]⟩
    · exact absurd e hnt

theorem step_ask {n : ℕ} {u u' : Users} (h : Inv n u) (indices : List ℤ) (hc : Careful n (.ask indices))
    (hs : step u (.ask indices) = some u') :
    u' = { locks := { acquireAll u.locks u.locks.next indices with next := u.locks.next + 1 }
           asked := Function.update u.asked u.locks.next (indices.map Int.toNat)
           left := Function.update u.left u.locks.next (indices.map Int.toNat) } := by
  have hl := lock_careful u.locks h.run indices hc.1 (by rw [h.size]; exact hc.2)
  rw [step, hl] at hs
  exact (Option.some.inj hs).symm

theorem step_give {u u' : Users} {j k : ℕ} (hkn : k < u.locks.n) (hs : step u (.give j k) = some u') :
    (k ∈ u.left j ∧ fired u.locks j (u.asked j) = true) ∧
      u' = { u with locks := tryRelease u.locks k, left := Function.update u.left j ((u.left j).erase k) } := by
  rw [step] at hs
  split at hs
  · rename_i hc
    refine ⟨hc, ?_⟩
    have hp : position u.locks.n (k : ℤ) = some k := by
      have : (k : ℤ) < u.locks.n := by exact_mod_cast hkn
      simp [position, this]
    simp only [release, hp] at hs
    exact (Option.some.inj hs).symm
  · cases hs

theorem give_lt {n : ℕ} {u u' : Users} (h : Inv n u) {j k : ℕ} (hs : step u (.give j k) = some u') : k < u.locks.n := by
  rw [step] at hs
  split at hs
  · rename_i hc
    rw [h.size]
    exact h.range j k (h.sub j hc.1)
  · cases hs

theorem inv_step {n : ℕ} {u u' : Users} (h : Inv n u) (a : Act) (hc : Careful n a) (hs : step u a = some u') :
    Inv n u' := by
  cases a with
  | ask indices =>
    rw [step_ask h indices hc hs]
    have hrest := acquireAll_rest u.locks.next indices u.locks
    have hq := acquireAll_queue u.locks.next indices u.locks hc.1 (fun k hk => (hc.2 k hk).1)
    have hnew : u.left u.locks.next = [] := by
      have := h.sub u.locks.next
      rw [h.fresh _ le_rfl] at this
      exact List.subset_nil.1 this
    have hmem : ∀ p : ℕ, p ∈ indices.map Int.toNat ↔ (p : ℤ) ∈ indices := by
      intro p
      simp only [List.mem_map]
      constructor
      · rintro ⟨k, hk, e⟩
        have := (hc.2 k hk).1
        have e' : (p : ℤ) = k := by omega
        rw [e']; exact hk
      · intro hk; exact ⟨_, hk, by simp⟩
    refine ⟨hrest.2.2.trans h.run, hrest.1.trans h.size, ?_, ?_, ?_, ?_, ?_, ?_, ?_⟩
    · intro j p hp
      dsimp only at hp ⊢
      rw [hq]
      by_cases hj : j = u.locks.next
      · subst hj
        rw [Function.update_self, hmem] at hp
        rw [if_pos hp]; simp
      · rw [Function.update_of_ne hj] at hp
        have := h.mem j p hp
        split
        · exact List.mem_append_left _ this
        · exact this
    · intro p
      dsimp only
      rw [hq]
      split
      · refine List.pairwise_append.2 ⟨h.sorted p, List.pairwise_singleton _ _, ?_⟩
        intro a ha b hb
        rw [List.mem_singleton.1 hb]
        exact h.below p a ha
      · exact h.sorted p
    · intro p j hj
      dsimp only at hj ⊢
      rw [hq] at hj
      split at hj
      · rcases List.mem_append.1 hj with e | e
        · exact Nat.lt_succ_of_lt (h.below p j e)
        · rw [List.mem_singleton.1 e]; exact Nat.lt_succ_self _
      · exact Nat.lt_succ_of_lt (h.below p j hj)
    · intro j
      dsimp only
      by_cases hj : j = u.locks.next
      · subst hj; simp
      · rw [Function.update_of_ne hj, Function.update_of_ne hj]; exact h.sub j
    · intro j
      dsimp only
      by_cases hj : j = u.locks.next
      · subst hj
        rw [Function.update_self]
        refine (List.nodup_map_iff_inj_on hc.1).2 ?_
        intro a ha b hb e
        have := (hc.2 a ha).1
        have := (hc.2 b hb).1
        omega
      · rw [Function.update_of_ne hj]; exact h.nodup j
    · intro j p hp
      dsimp only at hp
      by_cases hj : j = u.locks.next
      · subst hj
        rw [Function.update_self, hmem] at hp
        have := (hc.2 _ hp).2
        exact_mod_cast this
      · rw [Function.update_of_ne hj] at hp; exact h.range j p hp
    · intro j hj
      dsimp only at hj ⊢
      rw [Function.update_of_ne (by omega)]
      exact h.fresh j (by omega)
  | give j k =>
    obtain ⟨hc', e⟩ := step_give (give_lt h hs) hs
    obtain ⟨t, ht⟩ := head_of_fired h hc'.1 hc'.2
    rw [e]
    refine ⟨h.run, h.size, ?_, ?_, ?_, ?_, ?_, h.range, h.fresh⟩
    · intro i p hp
      dsimp only [tryRelease] at hp ⊢
      by_cases hpk : p = k
      · subst hpk
        rw [Function.update_self, ht, List.tail_cons]
        by_cases hi : i = j
        · subst hi
          rw [Function.update_self] at hp
          exact absurd hp (List.Nodup.not_mem_erase (h.nodup i))
        · rw [Function.update_of_ne hi] at hp
          have := h.mem i p hp
          rw [ht] at this
          exact (List.mem_cons.1 this).resolve_left hi
      · rw [Function.update_of_ne hpk]
        refine h.mem i p ?_
        by_cases hi : i = j
        · subst hi
          rw [Function.update_self] at hp
          exact List.mem_of_mem_erase hp
        · rwa [Function.update_of_ne hi] at hp
    · intro p
      dsimp only [tryRelease]
      by_cases hpk : p = k
      · subst hpk
        rw [Function.update_self]
        exact (h.sorted p).tail
      · rw [Function.update_of_ne hpk]; exact h.sorted p
    · intro p i hi
      dsimp only [tryRelease] at hi ⊢
      by_cases hpk : p = k
      · subst hpk
        rw [Function.update_self] at hi
        exact h.below p i (List.mem_of_mem_tail hi)
      · rw [Function.update_of_ne hpk] at hi; exact h.below p i hi
    · intro i
      dsimp only
      by_cases hi : i = j
      · subst hi
        rw [Function.update_self]
        exact fun x hx => h.sub i (List.mem_of_mem_erase hx)
      · rw [Function.update_of_ne hi]; exact h.sub i
    · intro i
      dsimp only
      by_cases hi : i = j
      · subst hi
        rw [Function.update_self]
        exact (h.nodup i).erase _
      · rw [Function.update_of_ne hi]; exact h.nodup i

theorem noStray_step {n : ℕ} {u u' : Users} (h : Inv n u) (hn : NoStray u) (a : Act) (hc : Careful n a)
    (hs : step u a = some u') : NoStray u' := by
  cases a with
  | ask indices =>
    rw [step_ask h indices hc hs]
    have hq := acquireAll_queue u.locks.next indices u.locks hc.1 (fun k hk => (hc.2 k hk).1)
    intro p j hj
    dsimp only at hj ⊢
    rw [hq] at hj
    have old : j ∈ u.locks.queue p → p ∈ Function.update u.left u.locks.next (indices.map Int.toNat) j := by
      intro hj
      have := h.below p j hj
      rw [Function.update_of_ne (by omega)]
      exact hn p j hj
    split at hj
    · rename_i hp
      rcases List.mem_append.1 hj with e | e
      · exact old e
      · rw [List.mem_singleton.1 e, Function.update_self]
        exact List.mem_map.2 ⟨_, hp, by simp⟩
    · exact old hj
  | give j k =>
    obtain ⟨hc', e⟩ := step_give (give_lt h hs) hs
    obtain ⟨t, ht⟩ := head_of_fired h hc'.1 hc'.2
    rw [e]
    intro p i hi
    dsimp only [tryRelease] at hi ⊢
    by_cases hpk : p = k
    · subst hpk
      rw [Function.update_self, ht, List.tail_cons] at hi
      have hso := h.sorted p
      rw [ht] at hso
      have := List.rel_of_pairwise_cons hso hi
      rw [Function.update_of_ne (by omega)]
      exact hn p i (by rw [ht]; exact List.mem_cons_of_mem _ hi)
    · rw [Function.update_of_ne hpk] at hi
      have := hn p i hi
      by_cases hij : i = j
      · subst hij
        rw [Function.update_self]
        exact (List.mem_erase_of_ne hpk).2 this
      · rw [Function.update_of_ne hij]; exact this

theorem run_keeps {n : ℕ} (J : Users → Prop)
    (hJ : ∀ u u' a, Inv n u → J u → Careful n a → step u a = some u' → J u') (as : List Act) (hc : ∀ a ∈ as, Careful n a)
    (u u' : Users) (h : Inv n u) (hj : J u) (hr : run u as = some u') : Inv n u' ∧ J u' := by
  induction as generalizing u with
  | nil => rw [run] at hr; cases hr; exact ⟨h, hj⟩
  | cons a as ih =>
    rw [run] at hr
    split at hr
    · cases hr
    · rename_i u1 hu1
      exact ih (fun x hx => hc x (List.mem_cons_of_mem _ hx)) u1 (inv_step h a (hc a List.mem_cons_self) hu1)
        (hJ u u1 a h hj (hc a List.mem_cons_self) hu1) hr

theorem reach_inv {n : ℕ} (as : List Act) (hc : ∀ a ∈ as, Careful n a) (u : Users) (hr : run (start n) as = some u) :
    Inv n u ∧ NoStray u :=
  run_keeps NoStray (fun _ _ a h hn hca hs => noStray_step h hn a hca hs) as hc (start n) u (inv_start n).1 (inv_start n).2 hr

/-- C101 (what holds): with requests for different existing members, whatever is asked and given back in whatever order, two
granted requests never have the same lock: of the locks of a granted request not yet given back none is had by another. -/
theorem C101_exclusive_partial (n : ℕ) (as : List Act) (hc : ∀ a ∈ as, Careful n a) (u : Users)
    (hr : run (start n) as = some u) (i j p : ℕ) (hi : p ∈ u.left i) (hj : p ∈ u.left j)
    (fi : fired u.locks i (u.asked i) = true) (fj : fired u.locks j (u.asked j) = true) : i = j := by
  obtain ⟨h, -⟩ := reach_inv as hc u hr
  obtain ⟨t, e⟩ := head_of_fired h hi fi
  obtain ⟨t', e'⟩ := head_of_fired h hj fj
  rw [e] at e'
  exact (List.cons.inj e').1

/-- C101 (what holds): requests are served in the order they were made: a request is granted only if every earlier one has
given back the locks that both asked for. -/
theorem C101_in_order_partial (n : ℕ) (as : List Act) (hc : ∀ a ∈ as, Careful n a) (u : Users)
    (hr : run (start n) as = some u) (i j p : ℕ) (hij : i < j) (hi : p ∈ u.left i) (hj : p ∈ u.left j) :
    fired u.locks j (u.asked j) = false := by
  obtain ⟨h, -⟩ := reach_inv as hc u hr
  by_contra hf
  rw [Bool.not_eq_false] at hf
  obtain ⟨t, e⟩ := head_of_fired h hj hf
  have hm := h.mem i p hi
  have hso := h.sorted p
  rw [e] at hm hso
  rcases List.mem_cons.1 hm with e1 | e1
  · omega
  · have := List.rel_of_pairwise_cons hso e1
    omega

/-- The earliest request with locks not given back has been granted. -/
theorem lowest_fired {n : ℕ} {u : Users} (h : Inv n u) (hn : NoStray u) (i : ℕ) (hlow : ∀ m, m < i → u.left m = []) :
    fired u.locks i (u.asked i) = true := by
  refine List.all_eq_true.2 (fun p _ => ?_)
  simp only [Bool.not_eq_true', List.contains_eq_mem, decide_eq_false_iff_not]
  intro ht
  cases hq : u.locks.queue p with
  | nil => rw [hq] at ht; simp at ht
  | cons a t =>
    rw [hq, List.tail_cons] at ht
    have hso := h.sorted p
    rw [hq] at hso
    have hai := List.rel_of_pairwise_cons hso ht
    have := hn p a (by rw [hq]; exact List.mem_cons_self)
    rw [hlow a hai] at this
    simp at this

theorem served {n : ℕ} (j : ℕ) : ∀ (m : ℕ) (u : Users), Inv n u → NoStray u →
    (∑ i ∈ Finset.range j, (u.left i).length) = m →
    ∃ (gs : List (ℕ × ℕ)) (u' : Users), (∀ g ∈ gs, g.1 < j) ∧ run u (gs.map fun g => Act.give g.1 g.2) = some u' ∧
      fired u'.locks j (u'.asked j) = true := by
  intro m
  induction m with
  | zero =>
    intro u h hn hm
    refine ⟨[], u, by simp, rfl, lowest_fired h hn j (fun i hi => ?_)⟩
    have := Finset.sum_eq_zero_iff.1 hm i (Finset.mem_range.2 hi)
    exact List.length_eq_zero_iff.1 this
  | succ m ih =>
    intro u h hn hm
    have hex : ∃ i, i < j ∧ u.left i ≠ [] := by
      by_contra hcon
      push Not at hcon
      have : (∑ i ∈ Finset.range j, (u.left i).length) = 0 :=
        Finset.sum_eq_zero (fun i hi => by rw [hcon i (Finset.mem_range.1 hi)]; rfl)
      omega
    classical
    let i := Nat.find hex
    obtain ⟨hij, hne⟩ := Nat.find_spec hex
    have hlow : ∀ l, l < i → u.left l = [] := by
      intro l hl
      by_contra hcon
      exact Nat.find_min hex hl ⟨lt_trans hl hij, hcon⟩
    have hf := lowest_fired h hn i hlow
    obtain ⟨k, ks, hks⟩ := List.exists_cons_of_ne_nil hne
    have hk : k ∈ u.left i := by rw [hks]; exact List.mem_cons_self
    have hst : step u (.give i k) = some { u with
        locks := (release u.locks [(k : ℤ)]).1, left := Function.update u.left i ((u.left i).erase k) } := by
      rw [step, if_pos ⟨hk, hf⟩]
    have h1 := inv_step h (.give i k) trivial hst
    have hn1 := noStray_step h hn (.give i k) trivial hst
    have hlen : ((u.left i).erase k).length + 1 = (u.left i).length := by
      rw [List.length_erase_of_mem hk, hks]; rfl
    have hsum : (∑ l ∈ Finset.range j, (Function.update u.left i ((u.left i).erase k) l).length) = m := by
      have hi : i ∈ Finset.range j := Finset.mem_range.2 hij
      rw [← Finset.add_sum_erase _ _ hi] at hm ⊢
      rw [Function.update_self]
      have : ∑ l ∈ (Finset.range j).erase i, (Function.update u.left i ((u.left i).erase k) l).length =
          ∑ l ∈ (Finset.range j).erase i, (u.left l).length :=
        Finset.sum_congr rfl (fun l hl => by rw [Function.update_of_ne (Finset.ne_of_mem_erase hl)])
      rw [this]
      omega
    obtain ⟨gs, u', g1, g2, g3⟩ := ih _ h1 hn1 hsum
    refine ⟨(i, k) :: gs, u', ?_, ?_, g3⟩
    · intro g hg
      rcases List.mem_cons.1 hg with e | e
      · rw [e]; exact hij
      · exact g1 g e
    · rw [List.map_cons, run, hst]
      exact g2

/-- C101 (what holds): there is no deadlock: whatever was asked and given back so far, each request is granted as soon as
requests made before it have given back what they have; they can do so. -/
theorem C101_no_deadlock_partial (n : ℕ) (as : List Act) (hc : ∀ a ∈ as, Careful n a) (u : Users)
    (hr : run (start n) as = some u) (j : ℕ) :
    ∃ (gs : List (ℕ × ℕ)) (u' : Users), (∀ g ∈ gs, g.1 < j) ∧ run u (gs.map fun g => Act.give g.1 g.2) = some u' ∧
      fired u'.locks j (u'.asked j) = true := by
  obtain ⟨h, hn⟩ := reach_inv as hc u hr
  exact served j _ u h hn rfl

/-! ## Careless use -/

/-- C101: a request that names a member twice is refused. -/
theorem C101_refused (s : State) (hr : s.running = true) (pre : List ℤ) (k : ℤ) (rest : List ℤ)
    (hpre : ∀ x ∈ pre, (pre ++ k :: rest).count x ≤ 1 ∧ 0 ≤ x ∧ x < s.n) (hk : 1 < (pre ++ k :: rest).count k) :
    lock s (pre ++ k :: rest) = ({ acquireAll s s.next pre with next := s.next + 1 }, .valueError) := by
  have e := lockLoop_append (pre ++ k :: rest) s.next pre (k :: rest) s [] hpre
  simp only [lock, hr, if_true, e, lockLoop, if_pos hk]

/-- C101 fails: but the locks asked for before the repeated one is met are taken, and whoever asks for one of them later
waits for ever, however the others go on. -/
theorem C101_refused_keeps_locks (n : ℕ) (as : List Act) (hc : ∀ a ∈ as, Careful n a) (u : Users)
    (hr : run (start n) as = some u) (pre : List ℤ) (k : ℤ) (rest : List ℤ) (hnd : pre.Nodup)
    (hpre : ∀ x ∈ pre, (pre ++ k :: rest).count x ≤ 1 ∧ 0 ≤ x ∧ x < n) (hk : 1 < (pre ++ k :: rest).count k)
    (u1 : Users) (h1 : step u (.ask (pre ++ k :: rest)) = some u1)
    (as' : List Act) (hc' : ∀ a ∈ as', Careful n a) (u2 : Users) (h2 : run u1 as' = some u2)
    (j p : ℕ) (hj : u.locks.next < j) (hp : (p : ℤ) ∈ pre) (hpj : p ∈ u2.left j) :
    fired u2.locks j (u2.asked j) = false := by
  obtain ⟨h, -⟩ := reach_inv as hc u hr
  have hl := C101_refused u.locks h.run pre k rest (by rw [h.size]; exact hpre) hk
  have hu1 : u1 = { u with locks := { acquireAll u.locks u.locks.next pre with next := u.locks.next + 1 } } := by
    rw [step, hl] at h1
    exact (Option.some.inj h1).symm
  have hq := acquireAll_queue u.locks.next pre u.locks hnd (fun x hx => (hpre x hx).2.1)
  have hrest := acquireAll_rest u.locks.next pre u.locks
  set g := u.locks.next with hg
  have hnew : u.left g = [] := by
    have := h.sub g
    rw [h.fresh _ le_rfl] at this
    exact List.subset_nil.1 this
  have hI1 : Inv n u1 := by
    rw [hu1]
    refine ⟨hrest.2.2.trans h.run, hrest.1.trans h.size, ?_, ?_, ?_, h.sub, h.nodup, h.range, ?_⟩
    · intro i q hiq
      have := h.mem i q hiq
      dsimp only
      rw [hq]
      split
      · exact List.mem_append_left _ this
      · exact this
    · intro q
      dsimp only
      rw [hq]
      split
      · refine List.pairwise_append.2 ⟨h.sorted q, List.pairwise_singleton _ _, ?_⟩
        intro a ha b hb
        rw [List.mem_singleton.1 hb]
        exact h.below q a ha
      · exact h.sorted q
    · intro q i hi
      dsimp only at hi ⊢
      rw [hq] at hi
      split at hi
      · rcases List.mem_append.1 hi with e | e
        · exact Nat.lt_succ_of_lt (h.below q i e)
        · rw [List.mem_singleton.1 e]; exact Nat.lt_succ_self _
      · exact Nat.lt_succ_of_lt (h.below q i hi)
    · intro i hi
      exact h.fresh i (by dsimp only at hi; omega)
  have hst : g ∈ u1.locks.queue p ∧ u1.left g = [] ∧ g < u1.locks.next := by
    rw [hu1]
    refine ⟨?_, hnew, Nat.lt_succ_self _⟩
    dsimp only
    rw [hq, if_pos hp]; simp
  obtain ⟨hI2, hs2⟩ := run_keeps (n := n) (fun v => g ∈ v.locks.queue p ∧ v.left g = [] ∧ g < v.locks.next) (by
    intro v v' a hI ⟨s1, s2, s3⟩ hca hs
    cases a with
    | ask indices =>
      rw [step_ask hI indices hca hs]
      have hq := acquireAll_queue v.locks.next indices v.locks hca.1 (fun k hk => (hca.2 k hk).1)
      refine ⟨?_, ?_, Nat.lt_succ_of_lt s3⟩
      · dsimp only
        rw [hq]
        split
        · exact List.mem_append_left _ s1
        · exact s1
      · dsimp only
        rw [Function.update_of_ne (by omega)]; exact s2
    | give i k =>
      obtain ⟨hc', e⟩ := step_give (give_lt hI hs) hs
      obtain ⟨t, ht⟩ := head_of_fired hI hc'.1 hc'.2
      have hig : i ≠ g := by
        intro e1
        rw [e1, s2] at hc'
        simp at hc'
      rw [e]
      refine ⟨?_, ?_, s3⟩
      · dsimp only [tryRelease]
        by_cases hpk : p = k
        · subst hpk
          rw [Function.update_self]
          rw [ht] at s1 ⊢
          exact (List.mem_cons.1 s1).resolve_left (Ne.symm hig)
        · rw [Function.update_of_ne hpk]; exact s1
      · dsimp only
        rw [Function.update_of_ne (Ne.symm hig)]; exact s2) as' hc' u1 u2 hI1 hst h2
  by_contra hf
  rw [Bool.not_eq_false] at hf
  obtain ⟨t, e⟩ := head_of_fired hI2 hpj hf
  have hm := hs2.1
  have hso := hI2.sorted p
  rw [e] at hm hso
  rcases List.mem_cons.1 hm with e1 | e1
  · omega
  · have := List.rel_of_pairwise_cons hso e1
    omega

/-- C101 fails: a member named once from the front and once from the back is not recognised as named twice: the request
waits for itself. -/
theorem C101_waits_for_itself (s : State) (hr : s.running = true) (m : ℕ) (hn : s.n = m + 1) (hq : s.queue m = []) :
    (lock s [(m : ℤ), -1]).2 = .requested [m, m] ∧ fired (lock s [(m : ℤ), -1]).1 s.next [m, m] = false := by
  have c1 : [(m : ℤ), -1].count (m : ℤ) ≤ 1 := by
    rw [List.count_cons_self, List.count_cons_of_ne (by omega)]; simp
  have c2 : [(m : ℤ), -1].count (-1) ≤ 1 := by
    rw [List.count_cons_of_ne (by omega)]; simp
  have p1 : position s.n (m : ℤ) = some m := by
    simp [position, hn]
  have p2 : position s.n (-1) = some m := by
    simp [position, hn]
  have e : lock s [(m : ℤ), -1] =
      ({ acquire (acquire s s.next m) s.next m with next := s.next + 1 }, .requested [m, m]) := by
    simp only [lock, hr, if_true, lockLoop]
    rw [if_neg (by omega), if_neg (by rw [hn]; push_cast; omega), p1]
    dsimp only
    rw [if_neg (by omega), if_neg (by simp only [acquire, hn]; push_cast; omega)]
    have p2' : position (acquire s s.next m).n (-1) = some m := p2
    rw [p2']
    rfl
  rw [e]
  refine ⟨rfl, ?_⟩
  simp [fired, acquire, hq]

/-- C101 fails: a request with an index that is too large takes all locks from those that have them: here request 1 is
granted the lock that request 0 has. -/
theorem C101_too_large_index : ∃ u u', run (start 3) [.ask [0], .ask [0]] = some u ∧ step u (.ask [3]) = some u' ∧
    fired u.locks 1 (u.asked 1) = false ∧
    (0 ∈ u'.left 0 ∧ fired u'.locks 0 (u'.asked 0) = true) ∧ (0 ∈ u'.left 1 ∧ fired u'.locks 1 (u'.asked 1) = true) :=
  ⟨_, _, rfl, rfl, by decide, by decide, by decide⟩

/-- C101 fails: in general, such a request, if it names no member before the index that is too large, passes every lock
of the population on to whoever waits for it first. -/
theorem C101_too_large (s : State) (hr : s.running = true) (k : ℤ) (hk : (s.n : ℤ) ≤ k) (rest : List ℤ)
    (hc : k ∉ rest) :
    (lock s (k :: rest)).2 = .fired ∧ (lock s (k :: rest)).1.n = s.n ∧
      ∀ p, (s.queue p = [] → (lock s (k :: rest)).1.queue p = []) ∧
        ∀ has waiting, s.queue p = has :: waiting →
          (lock s (k :: rest)).1.queue p = if p < s.n then waiting else has :: waiting := by
  have h1 : lockLoop (k :: rest) s.next (k :: rest) s [] = (releaseAll s, .fired) := by
    rw [lockLoop, if_neg (by simp [List.count_eq_zero_of_not_mem hc]), if_pos hk]
  have h2 : lock s (k :: rest) = ({ releaseAll s with next := s.next + 1 }, .fired) := by
    rw [lock, if_pos hr, h1]
  rw [h2]
  refine ⟨rfl, rfl, fun p => ⟨fun hq => ?_, fun a w hq => ?_⟩⟩
  · simp [releaseAll, hq]
  · simp only [releaseAll, hq, List.tail_cons]

/-- C101: giving back the locks of different members passes each of them on to the request that waits first (nothing
happens to a lock that nobody has); the other locks stay as they are. -/
theorem C101_release (s : State) (ks : List ℤ) (hnd : ks.Nodup) (hk : ∀ k ∈ ks, 0 ≤ k ∧ k < s.n) :
    (release s ks).2 = true ∧ ∀ p : ℕ,
      ((p : ℤ) ∉ ks → (release s ks).1.queue p = s.queue p) ∧
      ((p : ℤ) ∈ ks → (s.queue p = [] → (release s ks).1.queue p = []) ∧
        ∀ has waiting, s.queue p = has :: waiting → (release s ks).1.queue p = waiting) := by
  have key : (release s ks).2 = true ∧
      ∀ p : ℕ, (release s ks).1.queue p = if (p : ℤ) ∈ ks then (s.queue p).tail else s.queue p := by
    induction ks generalizing s with
    | nil => exact ⟨rfl, fun p => by simp [release]⟩
    | cons k ks ih =>
      have hk0 := hk k (by simp)
      have hpos : position s.n k = some k.toNat := by rw [position, if_pos hk0.1, if_pos hk0.2]
      have hrel : release s (k :: ks) = release (tryRelease s k.toNat) ks := by rw [release, hpos]
      obtain ⟨h1, h2⟩ := ih (tryRelease s k.toNat) (List.nodup_cons.1 hnd).2 fun x hx => hk x (by simp [hx])
      rw [hrel]
      refine ⟨h1, fun p => ?_⟩
      rw [h2 p]
      have hkn := (List.nodup_cons.1 hnd).1
      by_cases hpk : (p : ℤ) = k
      · have : k.toNat = p := by omega
        have hp : (p : ℤ) ∉ ks := hpk ▸ hkn
        simp [tryRelease, this, hpk]
        rw [← hpk]; simp [hp]
      · have : p ≠ k.toNat := by omega
        simp [tryRelease, this, hpk]
  refine ⟨key.1, fun p => ⟨fun h => by rw [key.2 p, if_neg h], fun h => ⟨fun hq => ?_, fun a w hq => ?_⟩⟩⟩
  · rw [key.2 p, if_pos h, hq]; rfl
  · rw [key.2 p, if_pos h, hq]; rfl

/-- C101: a member that does not exist is an `IndexError`; what was given back before stays given back. -/
theorem C101_release_missing (s : State) (k : ℤ) (hk : (s.n : ℤ) ≤ k ∨ k < -s.n) (ks : List ℤ) :
    release s (k :: ks) = (s, false) := by
  have : position s.n k = none := by
    unfold position
    split_ifs <;> first | rfl | omega
  rw [release, this]

example := C101_too_large ((run (start 3) [.ask [0], .ask [0], .ask [0], .ask [1]]).get rfl).locks rfl 3 (by decide) [1]
  (by decide)
example := C101_release ((run (start 3) [.ask [0], .ask [0], .ask [0], .ask [1]]).get rfl).locks [0, 2] (by decide)
  (by decide)
example := C101_release_missing (start 3).locks (-4) (by decide) [1]

/-- Non-vacuity: three requests, two of which share member 1; the third has to wait until the first has given it back. -/
example : (∀ a ∈ [Act.ask [0, 1], .ask [2], .ask [1, 3]], Careful 4 a) ∧
    (run (start 4) [.ask [0, 1], .ask [2], .ask [1, 3]]).map (fun u => [0, 1, 2].map fun j => fired u.locks j (u.asked j)) =
      some [true, true, false] ∧
    (run (start 4) [.ask [0, 1], .ask [2], .ask [1, 3], .give 0 1]).map
      (fun u => [0, 1, 2].map fun j => fired u.locks j (u.asked j)) = some [true, true, true] := by
  refine ⟨?_, by decide, by decide⟩
  intro a ha
  simp only [List.mem_cons, List.not_mem_nil, or_false] at ha
  rcases ha with rfl | rfl | rfl <;> simp [Careful]

/-- Non-vacuity of C101_refused_keeps_locks: a request for members 0, 1 and 1 is refused; the next one for member 0 waits. -/
example : (run (start 4) [.ask [0, 1, 1], .ask [0]]).map (fun u => (u.left 1, fired u.locks 1 (u.asked 1))) =
    some ([0], false) := by decide

/-- Requests, the last of which waits for the first. -/
def exAsks : List Act := [.ask [0, 1], .ask [2], .ask [1, 3]]

theorem exAsks_careful : ∀ a ∈ exAsks, Careful 4 a := by
  intro a ha
  simp only [exAsks, List.mem_cons, List.not_mem_nil, or_false] at ha
  rcases ha with rfl | rfl | rfl <;> simp [Careful]

example := C101_request (start 4).locks rfl [2, 0] (by decide) (by decide)

example := C101_not_running { (start 4).locks with running := false } rfl [2, 0]

example := C101_exclusive_partial 4 exAsks exAsks_careful _ (eq_get (by decide +kernel)) 0 0 1 (by decide +kernel)
  (by decide +kernel) (by decide +kernel) (by decide +kernel)

example := C101_in_order_partial 4 exAsks exAsks_careful _ (eq_get (by decide +kernel)) 0 2 1 (by decide)
  (by decide +kernel) (by decide +kernel)

example := C101_no_deadlock_partial 4 exAsks exAsks_careful _ (eq_get (by decide +kernel)) 2

example := C101_refused (start 4).locks rfl [0] 1 [1] (by decide) (by decide)

example := C101_refused_keeps_locks 4 [.ask [2]] (by intro a ha; simp at ha; subst ha; simp [Careful]) _
  (eq_get (by decide +kernel)) [0] 1 [1] (by decide) (by decide) (by decide) _ (eq_get (by decide +kernel))
  [.ask [0, 3]] (by intro a ha; simp at ha; subst ha; simp [Careful]) _ (eq_get (by decide +kernel)) 2 0
  (by decide +kernel) (by decide) (by decide +kernel)

example := C101_waits_for_itself (start 4).locks rfl 3 rfl rfl

end Locks
end Ade
