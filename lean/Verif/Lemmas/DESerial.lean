import Verif.Lemmas.DESystem
import Verif.Spec.Sequential

/-! The challenge system simulates sequential evolution. -/

set_option autoImplicit false

namespace Ade
namespace DESystem

open Sequential (popAfter challenge)

variable {I : Type}

/-- The decision of challenge `j` about its target has been made. -/
def Decided (s : Sys I) (j : ℕ) : Prop := s.phase j = .recording ∨ s.phase j = .done

/-- Simulation invariant while running. -/
structure SeqInv (P : Params I) (pop₀ : ℕ → I) (s : Sys I) : Prop where
  read : ∀ j t out, s.phase j = .evaluating t out →
    t = popAfter P.lt P.req pop₀ j (P.req j).kt ∧
    out = (P.req j).trial (popAfter P.lt P.req pop₀ j (P.req j).kt)
      (popAfter P.lt P.req pop₀ j (P.req j).kb) (popAfter P.lt P.req pop₀ j (P.req j).k0)
      (popAfter P.lt P.req pop₀ j (P.req j).k1)
  frontier : ∀ k m, (∀ i, i < m → (P.req i).kt = k → Decided s i) →
    (∀ i, m ≤ i → (P.req i).kt = k → ¬ Decided s i) → s.pop k = popAfter P.lt P.req pop₀ m k
  prefix_ : ∀ i j, j < i → (P.req j).kt = (P.req i).kt → Decided s i → Decided s j

theorem challenge_ne (lt : I → I → Bool) (pop : ℕ → I) (r : Req I) (k : ℕ) (hk : k ≠ r.kt) :
    challenge lt pop r k = pop k := by
  unfold challenge
  cases r.trial (pop r.kt) (pop r.kb) (pop r.k0) (pop r.k1) <;> simp [hk]

theorem popAfter_stable (P : Params I) (pop₀ : ℕ → I) (k a b : ℕ) (hab : a ≤ b)
    (h : ∀ i, a ≤ i → i < b → (P.req i).kt ≠ k) :
    popAfter P.lt P.req pop₀ b k = popAfter P.lt P.req pop₀ a k := by
  induction b with
  | zero => have : a = 0 := by omega
            subst this; rfl
  | succ b ih =>
    by_cases hb : a = b + 1
    · subst hb; rfl
    · have hab' : a ≤ b := by omega
      show challenge P.lt _ (P.req b) k = _
      rw [challenge_ne _ _ _ _ (fun h2 => h b hab' (by omega) h2.symm)]
      exact ih hab' (fun i h1 h2 => h i h1 (by omega))

theorem decided_kind {s : Sys I} {j : ℕ} (h : Decided s j) : s.kind j = .active ∨ s.kind j = .done := by
  rcases h with h | h <;> simp [Sys.kind, h, Phase.kind]

/-- While running, an active challenge other than `j` cannot have the same target as head `j`. -/
theorem decided_before {P : Params I} {s : Sys I} (hr : RunInv P s) (h : Inv P s)
    {i j : ℕ} (hij : i < j) (hj : (s.queue (P.req i).kt).head? = some j) (hi : i < s.issued) : s.phase i = .done := by
  have h1 : s.kind i ≠ .idle := (h.issued i).1 hi
  have h2 : s.kind i ≠ .waiting := by
    intro hw
    have := hr.queued i hw _ (Req.kt_mem _)
    exact absurd (head_lt_tail (h.sorted _) hj this) (by omega)
  have h3 : s.kind i ≠ .active := by
    intro ha
    have := hr.holds i ha
    rw [hj] at this
    exact absurd (Option.some.inj this) (by omega)
  cases hp : s.phase i <;> simp_all [Sys.kind, Phase.kind]

/-- While running, a later challenge that shares an index with a waiting one is undecided. -/
theorem undecided_after {P : Params I} {s : Sys I} (hr : RunInv P s)
    {i j : ℕ} (hij : j < i) (hkt : (P.req i).kt ∈ (P.req j).idx) (hw : s.kind j = .waiting) :
    ¬ Decided s i := fun hd =>
  hr.order i j hij (decided_kind hd) ⟨_, Req.kt_mem _, hkt⟩ hw

/-- Making the decision of `j`. -/
theorem seq_decide {P : Params I} {pop₀ : ℕ → I} {s s' : Sys I} (hq : SeqInv P pop₀ s) (j : ℕ)
    (hbefore : ∀ i, i < j → (P.req i).kt = (P.req j).kt → Decided s i)
    (hnot : ¬ Decided s j) (hdec : Decided s' j)
    (hother : ∀ i, i ≠ j → s'.phase i = s.phase i)
    (hpop : ∀ k, k ≠ (P.req j).kt → s'.pop k = s.pop k)
    (hpopj : s'.pop (P.req j).kt = popAfter P.lt P.req pop₀ (j + 1) (P.req j).kt) :
    SeqInv P pop₀ s' := by
  have hdi : ∀ i, i ≠ j → (Decided s' i ↔ Decided s i) := by
    intro i hi; unfold Decided; rw [hother i hi]
  have hafter : ∀ i, j < i → (P.req i).kt = (P.req j).kt → ¬ Decided s i :=
    fun i hi hk hd => hnot (hq.prefix_ i j hi hk.symm hd)
  refine ⟨?_, ?_, ?_⟩
  · intro i t out hi
    have hij : i ≠ j := by
      rintro rfl
      rcases hdec with h | h <;> rw [h] at hi <;> cases hi
    rw [hother i hij] at hi
    exact hq.read i t out hi
  · intro k m h1 h2
    by_cases hk : k = (P.req j).kt
    · subst hk
      have hjm : j < m := by
        by_contra hc
        exact h2 j (by omega) rfl hdec
      rw [hpopj]
      refine (popAfter_stable P pop₀ _ (j + 1) m (by omega) ?_).symm
      intro i hi1 hi2 hk
      have := (hdi i (by omega)).1 (h1 i hi2 hk)
      exact hafter i (by omega) hk this
    · rw [hpop k hk]
      apply hq.frontier
      · intro i hi hik
        have : i ≠ j := by rintro rfl; exact hk hik.symm
        exact (hdi i this).1 (h1 i hi hik)
      · intro i hi hik
        have : i ≠ j := by rintro rfl; exact hk hik.symm
        exact fun hd => h2 i hi hik ((hdi i this).2 hd)
  · intro i i' hlt hk hd
    by_cases hi' : i' = j
    · subst hi'; exact hdec
    · rw [hdi i' hi']
      by_cases hij : i = j
      · subst hij; exact hbefore i' hlt hk
      · exact hq.prefix_ i i' hlt hk ((hdi i hij).1 hd)

/-- Acts that decide nothing and leave the members alone. -/
theorem seq_same {P : Params I} {pop₀ : ℕ → I} {s s' : Sys I} (hq : SeqInv P pop₀ s)
    (hdec : ∀ i, Decided s' i ↔ Decided s i) (hpop : s'.pop = s.pop)
    (hev : ∀ i t out, s'.phase i = .evaluating t out → s.phase i = .evaluating t out ∨
      (t = popAfter P.lt P.req pop₀ i (P.req i).kt ∧
        out = (P.req i).trial (popAfter P.lt P.req pop₀ i (P.req i).kt)
          (popAfter P.lt P.req pop₀ i (P.req i).kb) (popAfter P.lt P.req pop₀ i (P.req i).k0)
          (popAfter P.lt P.req pop₀ i (P.req i).k1))) : SeqInv P pop₀ s' := by
  refine ⟨?_, ?_, ?_⟩
  · intro i t out hi
    rcases hev i t out hi with h | h
    · exact hq.read i t out h
    · exact h
  · intro k m h1 h2
    rw [hpop]
    exact hq.frontier k m (fun i hi hk => (hdec i).1 (h1 i hi hk))
      (fun i hi hk hd => h2 i hi hk ((hdec i).2 hd))
  · intro i j hij hk hd
    exact (hdec j).2 (hq.prefix_ i j hij hk ((hdec i).1 hd))

theorem decided_of_phase_eq {s s' : Sys I} (h : ∀ i, s'.phase i = s.phase i) (i : ℕ) :
    Decided s' i ↔ Decided s i := by unfold Decided; rw [h i]

/-- What a granted challenge reads is what the sequential run would read. -/
theorem read_granted {P : Params I} {pop₀ : ℕ → I} {s : Sys I} (h : Inv P s) (hr : RunInv P s)
    (hq : SeqInv P pop₀ s) {j : ℕ} (hw : s.kind j = .waiting) (hg : granted P s j = true) :
    ∀ k ∈ (P.req j).idx, s.pop k = popAfter P.lt P.req pop₀ j k := by
  intro k hk
  have hissued : j < s.issued := by rw [h.issued, hw]; simp
  apply hq.frontier
  · rintro i hij rfl
    exact .inr (decided_before hr h hij (heads_of_granted hr hw hg _ hk) (by omega))
  · rintro i hij rfl hd
    by_cases hij' : i = j
    · subst hij'
      rcases decided_kind hd with h1 | h1 <;> rw [hw] at h1 <;> cases h1
    · exact undecided_after hr (by omega) hk hw hd

theorem seq_step {P : Params I} {pop₀ : ℕ → I} {s s' : Sys I} {a : Act} (h : Inv P s)
    (hr : RunInv P s) (hrun : s.running = true) (hq : SeqInv P pop₀ s)
    (hs : step P s a = some s') (hrun' : s'.running = true) : SeqInv P pop₀ s' := by
  cases a with
  | issue =>
    simp only [step, hrun, if_true] at hs
    injection hs with hs; subst hs
    have hidle : s.kind s.issued = .idle := by
      by_contra hc; exact absurd ((h.issued _).2 hc) (lt_irrefl _)
    refine seq_same hq ?_ rfl ?_
    · intro i
      by_cases hi : i = s.issued
      · subst hi
        have : ¬ Decided s s.issued := fun hd => by
          rcases decided_kind hd with h1 | h1 <;> rw [hidle] at h1 <;> cases h1
        simp [Decided] at this ⊢
        exact this
      · simp [Decided, hi]
    · intro i t out hi
      by_cases hij : i = s.issued
      · subst hij; simp at hi
      · simp only [Function.update_of_ne hij] at hi; exact .inl hi
  | grant j =>
    simp only [step] at hs
    cases hp : s.phase j with
    | waiting =>
      have hw : s.kind j = .waiting := by unfold Sys.kind; rw [hp]; rfl
      simp only [hp] at hs
      split at hs
      · rename_i hg
        simp only [hrun] at hs
        have hread := read_granted h hr hq hw hg
        have ht := hread (P.req j).kt (by simp [Req.idx])
        have hb := hread (P.req j).kb (by simp [Req.idx])
        have h0 := hread (P.req j).k0 (by simp [Req.idx])
        have h1 := hread (P.req j).k1 (by simp [Req.idx])
        have hnd : ¬ Decided s j := fun hd => by
          rcases decided_kind hd with h1 | h1 <;> rw [hw] at h1 <;> cases h1
        have hissued : j < s.issued := by rw [h.issued, hw]; simp
        have hbefore : ∀ i, i < j → (P.req i).kt = (P.req j).kt → Decided s i := by
          intro i hij hk
          have hkm : (P.req i).kt ∈ (P.req j).idx := by rw [hk]; exact Req.kt_mem _
          exact .inr (decided_before hr h hij (heads_of_granted hr hw hg _ hkm) (by omega))
        cases htr : (P.req j).trial (s.pop (P.req j).kt) (s.pop (P.req j).kb) (s.pop (P.req j).k0)
            (s.pop (P.req j).k1) with
        | failedConstraints =>
          simp only [htr] at hs
          injection hs with hs; subst hs
          refine seq_decide hq j hbefore hnd (.inr (by simp)) ?_ (fun _ _ => rfl) ?_
          · intro i hi; simp [hi]
          · show s.pop _ = challenge P.lt _ (P.req j) _
            rw [ht, hb, h0, h1] at htr
            unfold challenge
            rw [htr]; exact ht
        | fatal =>
          simp only [htr] at hs
          injection hs with hs; subst hs
          rw [ht, hb, h0, h1] at htr
          refine seq_same hq ?_ rfl ?_
          · intro i
            by_cases hi : i = j
            · subst hi; simp [Decided] at hnd ⊢; exact hnd
            · simp [Decided, hi]
          · intro i t out hi
            by_cases hij : i = j
            · subst hij
              simp only [Function.update_self, Phase.evaluating.injEq] at hi
              exact .inr ⟨by rw [← hi.1, ht], by rw [← hi.2, htr]⟩
            · simp only [Function.update_of_ne hij] at hi; exact .inl hi
        | evaluated c =>
          simp only [htr] at hs
          injection hs with hs; subst hs
          rw [ht, hb, h0, h1] at htr
          refine seq_same hq ?_ rfl ?_
          · intro i
            by_cases hi : i = j
            · subst hi; simp [Decided] at hnd ⊢; exact hnd
            · simp [Decided, hi]
          · intro i t out hi
            by_cases hij : i = j
            · subst hij
              simp only [Function.update_self, Phase.evaluating.injEq] at hi
              exact .inr ⟨by rw [← hi.1, ht], by rw [← hi.2, htr]⟩
            · simp only [Function.update_of_ne hij] at hi; exact .inl hi
      · cases hs
    | _ => simp [hp] at hs
  | finish j =>
    simp only [step] at hs
    cases hp : s.phase j with
    | evaluating t out =>
      have ha : s.kind j = .active := by unfold Sys.kind; rw [hp]; rfl
      have hnd : ¬ Decided s j := by unfold Decided; rw [hp]; simp
      have hissued : j < s.issued := by rw [h.issued, ha]; simp
      have hbefore : ∀ i, i < j → (P.req i).kt = (P.req j).kt → Decided s i := by
        intro i hij hk
        have hkm : (P.req i).kt ∈ (P.req j).idx := by rw [hk]; exact Req.kt_mem _
        refine .inr (decided_before hr h hij ?_ (by omega))
        rw [hk]; exact hr.holds j ha
      have hpopj : s.pop (P.req j).kt = popAfter P.lt P.req pop₀ j (P.req j).kt := by
        apply hq.frontier
        · exact hbefore
        · intro i hij hk hd
          by_cases hij' : i = j
          · subst hij'; exact hnd hd
          · exact hnd (hq.prefix_ i j (by omega) hk.symm hd)
      obtain ⟨e1, e2⟩ := hq.read j t out hp
      simp only [hp, hrun] at hs
      cases out with
      | evaluated c =>
        simp only at hs
        have hch : popAfter P.lt P.req pop₀ (j + 1) (P.req j).kt =
            if P.lt c t = true then c else popAfter P.lt P.req pop₀ j (P.req j).kt := by
          show challenge P.lt _ (P.req j) _ = _
          unfold challenge
          rw [← e2]; simp [e1]
        split at hs
        · rename_i hlt
          injection hs with hs; subst hs
          refine seq_decide hq j hbefore hnd (.inr (by simp)) ?_ ?_ ?_
          · intro i hi; simp [hi]
          · intro k hk; simp [hk]
          · rw [hch]; simp [hlt]
        · rename_i hlt
          split at hs
          · injection hs with hs; subst hs
            refine seq_decide hq j hbefore hnd (.inl (by simp)) ?_ (fun _ _ => rfl) ?_
            · intro i hi; simp [hi]
            · rw [hch]; simp [hlt, hpopj]
          · injection hs with hs; subst hs
            refine seq_decide hq j hbefore hnd (.inr (by simp)) ?_ (fun _ _ => rfl) ?_
            · intro i hi; simp [hi]
            · rw [hch]; simp [hlt, hpopj]
      | _ =>
        simp only at hs
        injection hs with hs; subst hs
        simp at hrun'
    | _ => simp [hp] at hs
  | recorded j =>
    simp only [step] at hs
    cases hp : s.phase j with
    | recording =>
      simp only [hp] at hs
      injection hs with hs; subst hs
      refine seq_same hq ?_ rfl ?_
      · intro i
        by_cases hi : i = j
        · subst hi; simp [Decided, hp]
        · simp [Decided, hi]
      · intro i t out hi
        by_cases hij : i = j
        · subst hij; simp at hi
        · simp only [Function.update_of_ne hij] at hi; exact .inl hi
    | _ => simp [hp] at hs
  | shutdown =>
    simp only [step] at hs
    injection hs with hs; subst hs
    simp at hrun'

theorem SeqInv.init (P : Params I) (pop₀ : ℕ → I) : SeqInv P pop₀ (init pop₀) := by
  refine ⟨fun j t out h => by simp [DESystem.init] at h, ?_, ?_⟩
  · intro k m h1 _
    show pop₀ k = _
    refine (popAfter_stable P pop₀ k 0 m (by omega) ?_).symm
    intro i _ hi hk
    have := h1 i hi hk
    simp [Decided, DESystem.init] at this
  · intro i j _ _ h
    simp [Decided, DESystem.init] at h

/-- No act turns a stopped run back on. -/
theorem running_mono {P : Params I} {s s' : Sys I} {a : Act} (hs : step P s a = some s')
    (h : s'.running = true) : s.running = true := by
  cases a with
  | issue =>
    simp only [step] at hs
    split at hs
    · assumption
    · rename_i hr; injection hs with hs; subst hs; exact absurd h hr
  | grant j =>
    simp only [step] at hs
    split at hs
    · split at hs
      · split at hs
        · assumption
        · injection hs with hs; subst hs; exact h
      · cases hs
    · cases hs
  | finish j =>
    simp only [step] at hs
    split at hs
    · split at hs
      · assumption
      · injection hs with hs; subst hs; simp at h
    · cases hs
  | recorded j =>
    simp only [step] at hs
    split at hs
    · injection hs with hs; subst hs; exact h
    · cases hs
  | shutdown => simp only [step] at hs; injection hs with hs; subst hs; simp at h

theorem seq_reachable {P : Params I} (hd : Distinct P) {pop₀ : ℕ → I} {s : Sys I}
    (h : Reachable P pop₀ s) (hrun : s.running = true) : SeqInv P pop₀ s := by
  obtain ⟨acts, ha⟩ := h
  have := run_induction (P := P)
    (fun s => Inv P s ∧ (s.running = true → RunInv P s ∧ SeqInv P pop₀ s))
    (fun s a s' hs hst => by
      obtain ⟨h1, h2⟩ := inv_step hd hs.1 (fun hc => (hs.2 hc).1) hst
      refine ⟨h1, fun hc => ⟨h2 hc, ?_⟩⟩
      have hrs := running_mono hst hc
      exact seq_step hs.1 (hs.2 hrs).1 hrs (hs.2 hrs).2 hst hc)
    acts _ _ ⟨Inv.init P pop₀, fun _ => ⟨RunInv.init P pop₀, SeqInv.init P pop₀⟩⟩ ha
  exact (this.2 hrun).2

/-- While running, the target read by a challenge is still in place when its evaluation ends. -/
theorem target_current {P : Params I} {pop₀ : ℕ → I} {s : Sys I} (h : Inv P s) (hr : RunInv P s)
    (hq : SeqInv P pop₀ s) {j : ℕ} {t : I} {out : Outcome I} (hp : s.phase j = .evaluating t out) :
    s.pop (P.req j).kt = t := by
  have ha : s.kind j = .active := by unfold Sys.kind; rw [hp]; rfl
  have hnd : ¬ Decided s j := by unfold Decided; rw [hp]; simp
  have hissued : j < s.issued := by rw [h.issued, ha]; simp
  rw [(hq.read j t out hp).1]
  apply hq.frontier
  · intro i hij hk
    refine .inr (decided_before hr h hij ?_ (by omega))
    rw [hk]; exact hr.holds j ha
  · intro i hij hk hd
    by_cases hij' : i = j
    · subst hij'; exact hnd hd
    · exact hnd (hq.prefix_ i j (by omega) hk.symm hd)

/-! ### Counting -/

/-- Remaining acts of one challenge, at most. -/
def Phase.rank : Phase I → ℕ
  | .idle => 3
  | .waiting => 3
  | .evaluating _ _ => 2
  | .recording => 1
  | .done => 0

/-- Sum of the ranks of the first `n` challenges. -/
def total (f : ℕ → Phase I) : ℕ → ℕ
  | 0 => 0
  | n + 1 => total f n + (f n).rank

theorem total_update_ge (f : ℕ → Phase I) (j : ℕ) (p : Phase I) (n : ℕ) (h : n ≤ j) :
    total (Function.update f j p) n = total f n := by
  induction n with
  | zero => rfl
  | succ n ih =>
    have : n ≠ j := by omega
    simp [total, ih (by omega), this]

theorem total_update_lt (f : ℕ → Phase I) (j : ℕ) (p : Phase I) (n : ℕ) (h : j < n) :
    total (Function.update f j p) n + (f j).rank = total f n + p.rank := by
  induction n with
  | zero => omega
  | succ n ih =>
    by_cases hj : j = n
    · subst hj; simp [total, total_update_ge f j p j (le_refl _)]; omega
    · have : n ≠ j := fun h => hj h.symm
      simp only [total, Function.update_of_ne this]
      have := ih (by omega)
      omega

end DESystem
end Ade
