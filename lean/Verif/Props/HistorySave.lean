import Verif.Lemmas.History
import Verif.Props.History

/-!
# Property C44: saving and loading a history
-/

set_option autoImplicit false

namespace Ade
namespace History
open ClosestPair

theorem u2_map (l : List Nat) (h : ∀ r ∈ l, r < 65536) : l.map u2 = l := by
  induction l with
  | nil => rfl
  | cons a l ih =>
    simp only [List.map_cons]
    rw [ih fun r hr => h r (by simp [hr])]
    have := h a (by simp)
    simp [u2, Nat.mod_eq_of_lt this]

theorem rebuild_spec (s : Saved) (l : List Nat) (hrow : ∀ r ∈ l, r < s.nMax)
    (hfin : ∀ r ∈ l, (s.X r).finite = true) :
    ∃ c, rebuild s l = some c ∧ (∀ r, r ∈ c.K ↔ r ∈ l ∧ r ∉ s.Kp) ∧
      (∀ r, r ∈ c.Kn ↔ r ∈ l ∧ r ∉ s.Kp ∧ r ∈ s.Kn) := by
  induction l with
  | nil => exact ⟨.empty, rfl, by simp [Finder.empty], by simp [Finder.empty]⟩
  | cons a l ih =>
    obtain ⟨c, hc, hK, hKn⟩ := ih (fun r hr => hrow r (by simp [hr])) fun r hr => hfin r (by simp [hr])
    simp only [rebuild, hc]
    by_cases ha : a ∈ s.Kp
    · refine ⟨c, by simp [ha], ?_, ?_⟩
      · intro r; rw [hK]; simp only [List.mem_cons]
        constructor
        · rintro ⟨h1, h2⟩; exact ⟨.inr h1, h2⟩
        · rintro ⟨rfl | h1, h2⟩
          · exact absurd ha h2
          · exact ⟨h1, h2⟩
      · intro r; rw [hKn]; simp only [List.mem_cons]
        constructor
        · rintro ⟨h1, h2⟩; exact ⟨.inr h1, h2⟩
        · rintro ⟨rfl | h1, h2⟩
          · exact absurd ha h2.1
          · exact ⟨h1, h2⟩
    · have h1 := hrow a (by simp)
      have h2 := hfin a (by simp)
      refine ⟨_, by simp [ha, h1, Finder.setRow, h2]; rfl, ?_, ?_⟩
      · intro r; simp only [Finset.mem_insert, hK, List.mem_cons]
        constructor
        · rintro (rfl | h)
          · exact ⟨.inl rfl, ha⟩
          · exact ⟨.inr h.1, h.2⟩
        · rintro ⟨rfl | h, h'⟩
          · exact .inl rfl
          · exact .inr ⟨h, h'⟩
      · intro r
        by_cases hn : a ∈ s.Kn
        · simp only [hn, if_true, Finset.mem_insert, hKn, List.mem_cons]
          constructor
          · rintro (rfl | h)
            · exact ⟨.inl rfl, ha, hn⟩
            · exact ⟨.inr h.1, h.2⟩
          · rintro ⟨rfl | h, h'⟩
            · exact .inl rfl
            · exact .inr ⟨h, h'⟩
        · simp only [hn, if_false, hKn, List.mem_cons]
          constructor
          · rintro h; exact ⟨.inr h.1, h.2⟩
          · rintro ⟨rfl | h, h'⟩
            · exact absurd h'.2 hn
            · exact ⟨h, h'⟩

/-- C44: loading a saved history gives back the very same state: records, order, membership marks,
counter, key map and eligible rows; so it behaves the same in every later operation.  (Capacity at most
65536; in the same process, where hashes mean the same.) -/
theorem C44_round_trip_partial (f4 : PyFloat → PyFloat) (hf : IsSingle f4) (n : Nat) (hn : n ≤ 65536) (h : Hist)
    (hr : Reach f4 n h) (lp ln : List Nat) (hlp : lp.toFinset = h.Kp) (hln : ln.toFinset = h.Kn) :
    load (save h lp ln) = some h := by
  have hg := reach_good hf hr
  have hnm := (reach_nMax hr).1
  have hlt : ∀ r ∈ h.K, r < 65536 := fun r hr => by have := hg.rows r hr; omega
  have hmp : ∀ r, r ∈ lp ↔ r ∈ h.Kp := fun r => by rw [← hlp]; simp
  have hmn : ∀ r, r ∈ ln ↔ r ∈ h.Kn := fun r => by rw [← hln]; simp
  have hsave : save h lp ln = ⟨h.nMax, h.nTotal, h.X, h.K, lp, ln, h.kr⟩ := by
    unfold save
    rw [u2_map h.K hlt, u2_map lp fun r hr => hlt r (hg.kp r ((hmp r).1 hr)),
      u2_map ln fun r hr => hlt r (hg.kn r ((hmn r).1 hr))]
  rw [hsave]
  obtain ⟨c, hc, hK, hKn⟩ := rebuild_spec ⟨h.nMax, h.nTotal, h.X, h.K, lp, ln, h.kr⟩ h.K hg.rows hg.finite
  unfold load
  rw [hc]
  have hcpf : c = h.cpf := by
    have h1 : c.K = h.cpf.K := by
      ext r; rw [hK, hg.cK]; simp only [hmp]
    have h2 : c.Kn = h.cpf.Kn := by
      ext r
      rw [hKn, hg.cKn]; simp only [hmp, hmn]
      constructor
      · exact fun h => h.2.2
      · exact fun h' => ⟨hg.kn r h', fun hp => hg.disj r hp h', h'⟩
    cases c; cases hh : h.cpf; simp_all
  have hheld := hg.held
  rw [hcpf, hlp, hln]
  cases h
  simp_all

/-- C44 fails for rows beyond 16 bits: they are restored as other rows. -/
theorem C44_wide_rows_break : ∃ h : Hist, h.K = [65536] ∧ h.nMax = 70000 ∧
    ∃ h', load (save h [] []) = some h' ∧ h'.K = [0] :=
  ⟨{ init 70000 with K := [65536] }, rfl, rfl, _, rfl, rfl⟩

/-- C44 fails across processes: hashes of the same individuals are different there, so removing a member
from the population of a loaded history finds nothing and leaves its record marked as a member. -/
theorem C44_other_process_breaks :
    ∃ (h : Hist) (i : Ind), h = run id (init 10) [.add i false highest] ∧ ∃ h',
      load (save h [0] []) = some h' ∧ h'.Kp = {0} ∧
      ∀ key : Option Int, key ≠ i.key → (notInPop h' { i with key := key }).Kp = {0} := by
  refine ⟨_, mk 5 5, rfl, _, rfl, by decide +kernel, ?_⟩
  intro key hkey
  have hkr : ∀ k : Int, k ≠ 5 → (run id (init 10) [.add (mk 5 5) false highest]).kr k = none := by
    intro k hk
    have : (run id (init 10) [.add (mk 5 5) false highest]).kr k = if k = 5 then some 0 else none := rfl
    rw [this, if_neg hk]
  cases key with
  | none => rfl
  | some k =>
    have hk : k ≠ 5 := fun e => hkey (by rw [e]; rfl)
    unfold notInPop
    simp only [save]
    rw [hkr k hk]
    rfl

example : Reach toy 4 (run toy (init 4) demoOps) ∧ (run toy (init 4) demoOps).K.length = 4 ∧
    (run toy (init 4) demoOps).Kp ≠ ∅ ∧ (run toy (init 4) demoOps).Kn ≠ ∅ :=
  ⟨demo_reach, by decide +kernel, by decide +kernel, by decide +kernel⟩

example := C44_round_trip_partial toy toy_single 4 (by decide) _ demo_reach
  ((run toy (init 4) demoOps).K.filter fun r => r ∈ (run toy (init 4) demoOps).Kp)
  ((run toy (init 4) demoOps).K.filter fun r => r ∈ (run toy (init 4) demoOps).Kn)
  (by decide +kernel) (by decide +kernel)

end History
end Ade
