import Verif.Model.DESystem
import Mathlib.Order.Basic
import Mathlib.Order.Nat
import Mathlib.Data.List.Nodup

/-! Invariants of the challenge system of `Verif/Model/DESystem.lean`. -/

set_option autoImplicit false

namespace Ade
namespace DESystem

variable {I : Type}

/-- Coarse position of a challenge. -/
inductive Kind where
  | idle | waiting | active | done
  deriving DecidableEq

def Phase.kind : Phase I → Kind
  | .idle => .idle
  | .waiting => .waiting
  | .evaluating _ _ => .active
  | .recording => .active
  | .done => .done

def Sys.kind (s : Sys I) (j : ℕ) : Kind := (s.phase j).kind

/-- All challenges use four different indices. -/
def Distinct (P : Params I) : Prop := ∀ j, (P.req j).idx.Nodup

/-- Invariants of the locks that hold in every reachable state. -/
structure Inv (P : Params I) (s : Sys I) : Prop where
  sorted : ∀ k, (s.queue k).Pairwise (· < ·)
  issued : ∀ j, j < s.issued ↔ s.kind j ≠ .idle
  member : ∀ k j, j ∈ s.queue k →
    (s.kind j = .waiting ∧ k ∈ (P.req j).idx) ∨
    (s.kind j = .active ∧ k = (P.req j).kt ∧ (s.queue k).head? = some j)

/-- Further invariants while running. -/
structure RunInv (P : Params I) (s : Sys I) : Prop where
  queued : ∀ j, s.kind j = .waiting → ∀ k ∈ (P.req j).idx, j ∈ s.queue k
  holds : ∀ j, s.kind j = .active → (s.queue (P.req j).kt).head? = some j
  order : ∀ i j, j < i → (s.kind i = .active ∨ s.kind i = .done) →
    (∃ k, k ∈ (P.req i).idx ∧ k ∈ (P.req j).idx) → s.kind j ≠ .waiting

/-! ### Queue manipulation -/

theorem foldl_acquire (l : List ℕ) (hl : l.Nodup) (q : ℕ → List ℕ) (j k : ℕ) :
    l.foldl (fun q k => acquire q j k) q k = if k ∈ l then q k ++ [j] else q k := by
  induction l generalizing q with
  | nil => simp
  | cons a l ih =>
    rw [List.foldl_cons, ih (List.nodup_cons.1 hl).2]
    have ha := (List.nodup_cons.1 hl).1
    by_cases hk : k = a
    · subst hk; simp [ha, acquire]
    · simp [acquire, hk]

theorem release_apply (q : ℕ → List ℕ) (k k' : ℕ) :
    release q k k' = if k' = k then (q k').tail else q k' := by
  unfold release
  by_cases h : k' = k
  · subst h; simp
  · simp [h]

theorem head_of_granted {P : Params I} {s : Sys I} {j k : ℕ} (hg : granted P s j = true)
    (hk : k ∈ (P.req j).idx) (hj : j ∈ s.queue k) : (s.queue k).head? = some j := by
  unfold granted at hg
  rw [List.all_eq_true] at hg
  have h := hg k hk
  cases hq : s.queue k with
  | nil => simp [hq] at hj
  | cons a l =>
    rw [hq] at hj h
    simp only [List.tail_cons, Bool.not_eq_true', List.contains_eq_mem, decide_eq_false_iff_not] at h
    rcases List.mem_cons.1 hj with rfl | hj
    · rfl
    · exact absurd hj h

theorem not_mem_tail_of_head {l : List ℕ} {j : ℕ} (hl : l.Pairwise (· < ·)) (h : l.head? = some j) :
    j ∉ l.tail := by
  cases l with
  | nil => simp
  | cons a l =>
    simp only [List.head?_cons, Option.some.injEq] at h
    subst h
    intro hm
    exact absurd ((List.pairwise_cons.1 hl).1 _ hm) (lt_irrefl _)

theorem head_lt_tail {l : List ℕ} {i j : ℕ} (hl : l.Pairwise (· < ·)) (h : l.head? = some i)
    (hj : j ∈ l) : i ≤ j := by
  cases l with
  | nil => simp at h
  | cons a l =>
    simp only [List.head?_cons, Option.some.injEq] at h
    subst h
    rcases List.mem_cons.1 hj with rfl | hj
    · exact le_refl _
    · exact ((List.pairwise_cons.1 hl).1 _ hj).le

theorem mem_tail_ne_head {l : List ℕ} {i j : ℕ} (hl : l.Pairwise (· < ·)) (h : l.head? = some i)
    (hj : j ∈ l.tail) : j ≠ i := by
  rintro rfl; exact not_mem_tail_of_head hl h hj

/-- A waiting challenge that is not the head of anything keeps being described by `member` when queues
shrink by their heads. -/
theorem member_tail {P : Params I} {s : Sys I} (h : Inv P s) {k j : ℕ} (hj : j ∈ (s.queue k).tail) :
    s.kind j = .waiting ∧ k ∈ (P.req j).idx := by
  rcases h.member k j (List.mem_of_mem_tail hj) with h1 | ⟨_, _, h3⟩
  · exact h1
  · exact absurd hj (not_mem_tail_of_head (h.sorted k) h3)

theorem kind_update (s : Sys I) (j : ℕ) (p : Phase I) (i : ℕ) (q : ℕ → List ℕ) (pop : ℕ → I) (n : ℕ)
    (r : Bool) :
    (Sys.mk pop q (Function.update s.phase j p) n r).kind i = if i = j then p.kind else s.kind i := by
  unfold Sys.kind
  by_cases h : i = j
  · subst h; simp
  · simp [h]

/-- Common part of all acts by which challenge `j` ends: queues shrink and `j` is in none of them. -/
theorem inv_done {P : Params I} {s : Sys I} (h : Inv P s) (j : ℕ) (hj : s.kind j ≠ .idle)
    (q : ℕ → List ℕ) (hq : ∀ k, q k = s.queue k ∨ q k = (s.queue k).tail) (hnj : ∀ k, j ∉ q k)
    (pop : ℕ → I) (r : Bool) :
    Inv P ⟨pop, q, Function.update s.phase j .done, s.issued, r⟩ := by
  refine ⟨?_, ?_, ?_⟩
  · intro k
    rcases hq k with e | e
    · simp only [e]; exact h.sorted k
    · simp only [e]; exact (h.sorted k).tail
  · intro i
    rw [kind_update]
    by_cases hi : i = j
    · subst hi; simp only [if_true, Phase.kind]; simp [(h.issued i).2 hj]
    · simp only [hi, if_false]; exact h.issued i
  · intro k i hi
    have hij : i ≠ j := by rintro rfl; exact hnj k hi
    rw [kind_update]
    simp only [hij, if_false]
    rcases hq k with e | e
    · simp only [e] at hi ⊢; exact h.member k i hi
    · simp only [e] at hi
      exact .inl (member_tail h hi)

/-- Common part for acts ending `j` while running: only queues headed by `j` shrink. -/
theorem runInv_done {P : Params I} {s : Sys I} (hr : RunInv P s) (j : ℕ)
    (hord : ∀ i, i < j → (∃ k, k ∈ (P.req j).idx ∧ k ∈ (P.req i).idx) → s.kind i ≠ .waiting)
    (q : ℕ → List ℕ)
    (hq : ∀ k, q k = s.queue k ∨ (q k = (s.queue k).tail ∧ (s.queue k).head? = some j))
    (pop : ℕ → I) (r : Bool) :
    RunInv P ⟨pop, q, Function.update s.phase j .done, s.issued, r⟩ := by
  refine ⟨?_, ?_, ?_⟩
  · intro i hi k hk
    rw [kind_update] at hi
    by_cases hij : i = j
    · simp [hij, Phase.kind] at hi
    · simp only [hij, if_false] at hi
      have hm := hr.queued i hi k hk
      rcases hq k with e | ⟨e, e2⟩
      · simp only [e]; exact hm
      · simp only [e]
        cases hl : s.queue k with
        | nil => rw [hl] at hm; cases hm
        | cons a l =>
          rw [hl] at hm e2
          simp only [List.head?_cons, Option.some.injEq] at e2
          rcases List.mem_cons.1 hm with rfl | hm
          · exact absurd e2 hij
          · exact hm
  · intro i hi
    rw [kind_update] at hi
    by_cases hij : i = j
    · simp [hij, Phase.kind] at hi
    · simp only [hij, if_false] at hi
      have hh := hr.holds i hi
      rcases hq (P.req i).kt with e | ⟨e, e2⟩
      · simp only [e]; exact hh
      · rw [hh] at e2; exact absurd (Option.some.inj e2) hij
  · intro i i' hlt hi hk
    rw [kind_update] at hi ⊢
    by_cases hi' : i' = j
    · simp [hi', Phase.kind]
    · simp only [hi', if_false]
      by_cases hij : i = j
      · subst hij; exact hord i' hlt hk
      · simp only [hij, if_false] at hi
        exact hr.order i i' hlt hi hk

theorem Inv.init (P : Params I) (pop : ℕ → I) : Inv P (init pop) :=
  ⟨fun _ => List.Pairwise.nil, fun j => by simp [DESystem.init, Sys.kind, Phase.kind],
    fun k j hj => by simp [DESystem.init] at hj⟩

theorem RunInv.init (P : Params I) (pop : ℕ → I) : RunInv P (init pop) :=
  ⟨fun j hj => by simp [DESystem.init, Sys.kind, Phase.kind] at hj,
    fun j hj => by simp [DESystem.init, Sys.kind, Phase.kind] at hj,
    fun i j _ hi => by simp [DESystem.init, Sys.kind, Phase.kind] at hi⟩

theorem Req.kt_mem (r : Req I) : r.kt ∈ r.idx := by simp [Req.idx]

/-- What is known when a granted challenge continues while running: it heads its four queues. -/
theorem heads_of_granted {P : Params I} {s : Sys I} (hr : RunInv P s) {j : ℕ}
    (hw : s.kind j = .waiting) (hg : granted P s j = true) :
    ∀ k ∈ (P.req j).idx, (s.queue k).head? = some j :=
  fun k hk => head_of_granted hg hk (hr.queued j hw k hk)

theorem order_of_granted {P : Params I} {s : Sys I} (h : Inv P s) (hr : RunInv P s) {j : ℕ}
    (hw : s.kind j = .waiting) (hg : granted P s j = true) :
    ∀ i, i < j → (∃ k, k ∈ (P.req j).idx ∧ k ∈ (P.req i).idx) → s.kind i ≠ .waiting := by
  rintro i hij ⟨k, hkj, hki⟩ hwi
  have h1 := heads_of_granted hr hw hg k hkj
  have h2 := hr.queued i hwi k hki
  exact absurd (head_lt_tail (h.sorted k) h1 h2) (not_le.2 hij)

theorem release3_apply (q : ℕ → List ℕ) {a b c : ℕ} (hab : a ≠ b) (hac : a ≠ c) (hbc : b ≠ c) (k : ℕ) :
    release (release (release q a) b) c k = if k = a ∨ k = b ∨ k = c then (q k).tail else q k := by
  simp only [release_apply]
  by_cases h1 : k = a <;> by_cases h2 : k = b <;> by_cases h3 : k = c <;> simp_all

theorem idx_ne {P : Params I} (hd : Distinct P) (j : ℕ) :
    (P.req j).kt ≠ (P.req j).kb ∧ (P.req j).kt ≠ (P.req j).k0 ∧ (P.req j).kt ≠ (P.req j).k1 ∧
    (P.req j).kb ≠ (P.req j).k0 ∧ (P.req j).kb ≠ (P.req j).k1 ∧ (P.req j).k0 ≠ (P.req j).k1 := by
  have h := hd j
  simp only [Req.idx, List.nodup_cons, List.mem_cons, List.not_mem_nil, or_false, not_or] at h
  tauto

/-- A challenge with the phase `waiting` occurs only in the queues of its own indices. -/
theorem not_mem_of_waiting {P : Params I} {s : Sys I} (h : Inv P s) {j k : ℕ}
    (hw : s.kind j = .waiting) (hk : k ∉ (P.req j).idx) : j ∉ s.queue k := by
  intro hm
  rcases h.member k j hm with ⟨_, h2⟩ | ⟨h1, _⟩
  · exact hk h2
  · rw [hw] at h1; cases h1

/-- An active challenge occurs at most as head of its target's queue. -/
theorem active_mem {P : Params I} {s : Sys I} (h : Inv P s) {j k : ℕ}
    (ha : s.kind j = .active) (hm : j ∈ s.queue k) : k = (P.req j).kt ∧ (s.queue k).head? = some j := by
  rcases h.member k j hm with ⟨h1, _⟩ | ⟨_, h2⟩
  · rw [ha] at h1; cases h1
  · exact h2

theorem not_mem_release_kt {P : Params I} {s : Sys I} (h : Inv P s) {j : ℕ} (ha : s.kind j = .active)
    (k : ℕ) : j ∉ release s.queue (P.req j).kt k := by
  rw [release_apply]
  by_cases hk : k = (P.req j).kt
  · simp only [hk, if_true]
    intro hm
    exact not_mem_tail_of_head (h.sorted _) (active_mem h ha (List.mem_of_mem_tail hm)).2 hm
  · simp only [hk, if_false]
    intro hm; exact hk (active_mem h ha hm).1

theorem release_shrink (q : ℕ → List ℕ) (k k' : ℕ) :
    release q k k' = q k' ∨ release q k k' = (q k').tail := by
  rw [release_apply]; by_cases h : k' = k <;> simp [h]

/-- The lock invariants are preserved by every act. -/
theorem inv_step {P : Params I} (hd : Distinct P) {s s' : Sys I} {a : Act} (h : Inv P s)
    (hr : s.running = true → RunInv P s) (hs : step P s a = some s') :
    Inv P s' ∧ (s'.running = true → RunInv P s') := by
  cases a with
  | issue =>
    simp only [step] at hs
    have hidle : s.kind s.issued = .idle := by
      by_contra hc; exact absurd ((h.issued _).2 hc) (lt_irrefl _)
    split at hs
    · rename_i hrun
      injection hs with hs; subst hs
      have hmem : ∀ k i, i ∈ s.queue k → i < s.issued := by
        intro k i hi
        rw [h.issued]
        rcases h.member k i hi with ⟨h1, _⟩ | ⟨h1, _⟩ <;> simp [h1]
      have hq : ∀ k, (P.req s.issued).idx.foldl (fun q k => acquire q s.issued k) s.queue k =
          if k ∈ (P.req s.issued).idx then s.queue k ++ [s.issued] else s.queue k :=
        fun k => foldl_acquire _ (hd _) _ _ _
      refine ⟨⟨?_, ?_, ?_⟩, fun _ => ⟨?_, ?_, ?_⟩⟩
      · intro k
        simp only [hq]
        split
        · rw [List.pairwise_append]
          refine ⟨h.sorted k, List.pairwise_singleton _ _, ?_⟩
          intro i hi b hb
          rw [List.mem_singleton] at hb; subst hb; exact hmem k i hi
        · exact h.sorted k
      · intro i
        rw [kind_update]
        by_cases hi : i = s.issued
        · subst hi; simp [Phase.kind]
        · simp only [hi, if_false]
          rw [← h.issued]; omega
      · intro k i hi
        simp only [hq] at hi ⊢
        rw [kind_update]
        by_cases hk : k ∈ (P.req s.issued).idx
        · simp only [hk, if_true, List.mem_append, List.mem_singleton] at hi ⊢
          by_cases hij : i = s.issued
          · subst hij; left; simp [Phase.kind, hk]
          · simp only [hij, if_false]
            rcases hi with hi | hi
            · rcases h.member k i hi with h1 | ⟨h1, h2, h3⟩
              · exact .inl h1
              · exact .inr ⟨h1, h2, by rw [List.head?_append, h3]; rfl⟩
            · exact absurd hi hij
        · simp only [hk, if_false] at hi ⊢
          have hij : i ≠ s.issued := (hmem k i hi).ne
          simp only [hij, if_false]
          exact h.member k i hi
      · intro i hi k hk
        simp only [hq]
        rw [kind_update] at hi
        by_cases hij : i = s.issued
        · subst hij; simp [hk]
        · simp only [hij, if_false] at hi
          have := (hr hrun).queued i hi k hk
          split
          · exact List.mem_append_left _ this
          · exact this
      · intro i hi
        simp only [hq]
        rw [kind_update] at hi
        by_cases hij : i = s.issued
        · simp [hij, Phase.kind] at hi
        · simp only [hij, if_false] at hi
          have := (hr hrun).holds i hi
          split
          · rw [List.head?_append, this]; rfl
          · exact this
      · intro i i' hlt hi hk
        rw [kind_update] at hi ⊢
        have hij : i ≠ s.issued := by rintro rfl; simp [Phase.kind] at hi
        simp only [hij, if_false] at hi
        have hlt2 : i < s.issued := by rw [h.issued]; rcases hi with hi | hi <;> simp [hi]
        have hij' : i' ≠ s.issued := by omega
        simp only [hij', if_false]
        exact (hr hrun).order i i' hlt hi hk
    · rename_i hrun
      injection hs with hs; subst hs
      refine ⟨⟨h.sorted, ?_, ?_⟩, fun hc => absurd hc hrun⟩
      · intro i
        rw [kind_update]
        by_cases hi : i = s.issued
        · subst hi; simp [Phase.kind]
        · simp only [hi, if_false]
          rw [← h.issued]; omega
      · intro k i hi
        rw [kind_update]
        have hij : i ≠ s.issued := by
          rintro rfl
          rcases h.member k _ hi with ⟨h1, _⟩ | ⟨h1, _⟩ <;> rw [hidle] at h1 <;> cases h1
        simp only [hij, if_false]
        exact h.member k i hi
  | grant j =>
    simp only [step] at hs
    cases hp : s.phase j with
    | waiting =>
      have hw : s.kind j = .waiting := by unfold Sys.kind; rw [hp]; rfl
      have hni : s.kind j ≠ .idle := by rw [hw]; simp
      simp only [hp] at hs
      split at hs
      · rename_i hg
        split at hs
        · rename_i hrun
          have hR := hr hrun
          have hheads := heads_of_granted hR hw hg
          have hord := order_of_granted h hR hw hg
          obtain ⟨n1, n2, n3, n4, n5, n6⟩ := idx_ne hd j
          have hq3 := release3_apply s.queue n4 n5 n6
          have hkb : (P.req j).kb ∈ (P.req j).idx := by simp [Req.idx]
          have hk0 : (P.req j).k0 ∈ (P.req j).idx := by simp [Req.idx]
          have hk1 : (P.req j).k1 ∈ (P.req j).idx := by simp [Req.idx]
          cases htr : (P.req j).trial (s.pop (P.req j).kt) (s.pop (P.req j).kb) (s.pop (P.req j).k0)
            (s.pop (P.req j).k1) with
          | failedConstraints =>
            simp only [htr] at hs
            injection hs with hs; subst hs
            have hq : ∀ k, release (release (release (release s.queue (P.req j).kb) (P.req j).k0)
                (P.req j).k1) (P.req j).kt k =
                if k ∈ (P.req j).idx then (s.queue k).tail else s.queue k := by
              intro k
              rw [release_apply, hq3]
              simp only [Req.idx, List.mem_cons, List.not_mem_nil, or_false]
              by_cases h1 : k = (P.req j).kt
              · subst h1; simp [n1, n2, n3]
              · simp [h1]
            refine ⟨inv_done h j hni _ ?_ ?_ _ _, fun _ => runInv_done hR j hord _ ?_ _ _⟩
            · intro k; rw [hq]; split
              · exact .inr rfl
              · exact .inl rfl
            · intro k; rw [hq]; split
              · rename_i hk; exact not_mem_tail_of_head (h.sorted k) (hheads k hk)
              · rename_i hk; exact not_mem_of_waiting h hw hk
            · intro k; rw [hq]; split
              · rename_i hk; exact .inr ⟨rfl, hheads k hk⟩
              · exact .inl rfl
          | _ =>
            simp only [htr] at hs
            injection hs with hs; subst hs
            refine ⟨⟨?_, ?_, ?_⟩, fun _ => ⟨?_, ?_, ?_⟩⟩
            · intro k; simp only [hq3]; split
              · exact (h.sorted k).tail
              · exact h.sorted k
            · intro i
              rw [kind_update]
              by_cases hi : i = j
              · subst hi; simp [Phase.kind, (h.issued i).2 hni]
              · simp only [hi, if_false]; exact h.issued i
            · intro k i hi
              simp only [hq3] at hi ⊢
              rw [kind_update]
              by_cases hij : i = j
              · subst hij
                simp only [if_true, Phase.kind]
                right
                split at hi
                · rename_i hk
                  have hk' : k ∈ (P.req i).idx := by rcases hk with rfl | rfl | rfl <;> assumption
                  exact absurd hi (not_mem_tail_of_head (h.sorted k) (hheads k hk'))
                · rename_i hk
                  have hk' : k ∈ (P.req i).idx := by
                    by_contra hc; exact not_mem_of_waiting h hw hc hi
                  have hkt : k = (P.req i).kt := by
                    simp only [Req.idx, List.mem_cons, List.not_mem_nil, or_false] at hk'
                    tauto
                  subst hkt
                  simp only [hk, if_false]
                  exact ⟨trivial, trivial, hheads _ hk'⟩
              · simp only [hij, if_false]
                split at hi
                · exact .inl (member_tail h hi)
                · rename_i hk; simp only [hk, if_false]; exact h.member k i hi
            · intro i hi k hk
              rw [kind_update] at hi
              by_cases hij : i = j
              · simp [hij, Phase.kind] at hi
              · simp only [hij, if_false] at hi
                simp only [hq3]
                have hm := hR.queued i hi k hk
                split
                · rename_i hk2
                  have hk' : k ∈ (P.req j).idx := by rcases hk2 with rfl | rfl | rfl <;> assumption
                  have hh := hheads k hk'
                  cases hl : s.queue k with
                  | nil => rw [hl] at hm; cases hm
                  | cons a l =>
                    rw [hl] at hm hh
                    simp only [List.head?_cons, Option.some.injEq] at hh
                    rcases List.mem_cons.1 hm with rfl | hm
                    · exact absurd hh hij
                    · exact hm
                · exact hm
            · intro i hi
              rw [kind_update] at hi
              simp only [hq3]
              by_cases hij : i = j
              · subst hij
                simp only [n1, n2, n3, or_false, if_false]
                exact hheads _ (Req.kt_mem _)
              · simp only [hij, if_false] at hi
                have hh := hR.holds i hi
                split
                · rename_i hk2
                  have hk' : (P.req i).kt ∈ (P.req j).idx := by
                    rcases hk2 with e | e | e <;> rw [e] <;> assumption
                  rw [hheads _ hk'] at hh
                  exact absurd (Option.some.inj hh).symm hij
                · exact hh
            · intro i i' hlt hi hk
              rw [kind_update] at hi ⊢
              by_cases hi' : i' = j
              · simp [hi', Phase.kind]
              · simp only [hi', if_false]
                by_cases hij : i = j
                · subst hij; exact hord i' hlt hk
                · simp only [hij, if_false] at hi
                  exact hR.order i i' hlt hi hk
        · rename_i hrun
          injection hs with hs; subst hs
          refine ⟨inv_done h j hni _ (fun k => .inr rfl) ?_ _ _, fun hc => absurd hc hrun⟩
          intro k hm
          by_cases hk : k ∈ (P.req j).idx
          · unfold granted at hg
            rw [List.all_eq_true] at hg
            have := hg k hk
            simp only [Bool.not_eq_true', List.contains_eq_mem, decide_eq_false_iff_not] at this
            exact this hm
          · exact not_mem_of_waiting h hw hk (List.mem_of_mem_tail hm)
      · cases hs
    | _ => simp [hp] at hs
  | finish j =>
    simp only [step] at hs
    cases hp : s.phase j with
    | evaluating t out =>
      have ha : s.kind j = .active := by unfold Sys.kind; rw [hp]; rfl
      have hni : s.kind j ≠ .idle := by rw [ha]; simp
      simp only [hp] at hs
      have hend : ∀ (pop : ℕ → I) (r : Bool), (r = true → s.running = true) →
          Inv P ⟨pop, release s.queue (P.req j).kt, Function.update s.phase j .done, s.issued, r⟩ ∧
          (r = true →
            RunInv P ⟨pop, release s.queue (P.req j).kt, Function.update s.phase j .done, s.issued, r⟩) := by
        intro pop r hrr
        refine ⟨inv_done h j hni _ (release_shrink _ _) (not_mem_release_kt h ha) _ _, fun hc => ?_⟩
        have hR := hr (hrr hc)
        refine runInv_done hR j (fun i hij hk => hR.order j i hij (.inl ha) hk) _ ?_ _ _
        intro k
        rw [release_apply]
        by_cases hk : k = (P.req j).kt
        · subst hk; right; simp [hR.holds j ha]
        · left; simp [hk]
      split at hs
      · rename_i c hrun
        split at hs
        · injection hs with hs; subst hs; simpa using hend _ _ (fun _ => hrun)
        · split at hs
          · injection hs with hs; subst hs
            have hkind : ∀ i, (Sys.mk s.pop s.queue (Function.update s.phase j .recording) s.issued
                s.running).kind i = s.kind i := by
              intro i; rw [kind_update]
              by_cases hi : i = j
              · subst hi; simp [Phase.kind, ha]
              · simp [hi]
            refine ⟨⟨h.sorted, fun i => by rw [hkind]; exact h.issued i,
              fun k i hi => by rw [hkind]; exact h.member k i hi⟩, fun hc => ?_⟩
            have hR := hr hc
            exact ⟨fun i hi => hR.queued i (by rwa [hkind] at hi),
              fun i hi => hR.holds i (by rwa [hkind] at hi),
              fun i i' hlt hi hk => by rw [hkind] at hi ⊢; exact hR.order i i' hlt hi hk⟩
          · injection hs with hs; subst hs; simpa using hend _ _ (fun _ => hrun)
      · injection hs with hs; subst hs; exact hend _ _ (by simp)
    | _ => simp [hp] at hs
  | recorded j =>
    simp only [step] at hs
    cases hp : s.phase j with
    | recording =>
      have ha : s.kind j = .active := by unfold Sys.kind; rw [hp]; rfl
      have hni : s.kind j ≠ .idle := by rw [ha]; simp
      simp only [hp] at hs
      injection hs with hs; subst hs
      refine ⟨inv_done h j hni _ (release_shrink _ _) (not_mem_release_kt h ha) _ _, fun hc => ?_⟩
      have hR := hr hc
      refine runInv_done hR j (fun i hij hk => hR.order j i hij (.inl ha) hk) _ ?_ _ _
      intro k
      rw [release_apply]
      by_cases hk : k = (P.req j).kt
      · subst hk; right; simp [hR.holds j ha]
      · left; simp [hk]
    | _ => simp [hp] at hs
  | shutdown =>
    simp only [step] at hs
    injection hs with hs; subst hs
    exact ⟨⟨h.sorted, h.issued, h.member⟩, by simp⟩

/-- Induction principle for reachable states. -/
theorem run_induction {P : Params I} (M : Sys I → Prop) (hstep : ∀ s a s', M s → step P s a = some s' → M s')
    (acts : List Act) (s s' : Sys I) (hs : M s) (h : run P s acts = some s') : M s' := by
  induction acts generalizing s with
  | nil => simp only [run, Option.some.injEq] at h; subst h; exact hs
  | cons a as ih =>
    simp only [run] at h
    cases ha : step P s a with
    | none => simp [ha] at h
    | some t => simp only [ha] at h; exact ih t (hstep s a t hs ha) h

theorem inv_reachable {P : Params I} (hd : Distinct P) {pop₀ : ℕ → I} {s : Sys I}
    (h : Reachable P pop₀ s) : Inv P s ∧ (s.running = true → RunInv P s) := by
  obtain ⟨acts, ha⟩ := h
  exact run_induction (fun s => Inv P s ∧ (s.running = true → RunInv P s))
    (fun s a s' hs hst => inv_step hd hs.1 hs.2 hst) acts _ _
    ⟨Inv.init P pop₀, fun _ => RunInv.init P pop₀⟩ ha

end DESystem
end Ade
