import Verif.Model.PopHistory
import Verif.Lemmas.History
import Mathlib.Data.List.Perm.Basic

/-! Helper lemmas: the coupling of population members and history records. -/

set_option autoImplicit false

namespace Ade
namespace PopHistory
open History

/-- Usable members are those with a finite score. -/
def usable (m : Ind) : Bool := m.sse.isFinite

/-- The records marked as members are those of the usable individuals in `L`, and the key map knows them. -/
structure Coupled (f4 : PyFloat → PyFloat) (L : List Ind) (h : Hist) : Prop where
  nodup : (L.map Ind.key).Nodup
  keys : ∀ m ∈ L, m.key.isSome = true
  ex : ∃ rs : List (Ind × Nat), (rs.map Prod.fst).Perm (L.filter usable) ∧ (rs.map Prod.snd).Nodup ∧
    (∀ r, r ∈ h.Kp ↔ r ∈ rs.map Prod.snd) ∧ (∀ p ∈ rs, h.X p.2 = rowOf f4 p.1) ∧
    (∀ p ∈ rs, ∀ k, p.1.key = some k → h.kr k = some p.2) ∧
    (∀ k r, h.kr k = some r → ∃ p ∈ rs, p.1.key = some k ∧ p.2 = r)

theorem Coupled.perm {f4 : PyFloat → PyFloat} {L L' : List Ind} {h : Hist} (hc : Coupled f4 L h)
    (hp : L.Perm L') : Coupled f4 L' h := by
  obtain ⟨h1, h2, rs, h3, h4⟩ := hc
  exact ⟨(hp.map _).nodup_iff.1 h1, fun m hm => h2 m (hp.mem_iff.2 hm), rs, h3.trans (hp.filter _), h4⟩

theorem coupled_nil (f4 : PyFloat → PyFloat) (h : Hist) (hp : h.Kp = ∅) (hk : h.kr = fun _ => none) :
    Coupled f4 [] h :=
  ⟨by simp, by simp, [], by simp, by simp, by simp [hp], by simp, by simp, by simp [hk]⟩

theorem Coupled.card {f4 : PyFloat → PyFloat} {L : List Ind} {h : Hist} (hc : Coupled f4 L h) :
    h.Kp.card = (L.filter usable).length := by
  obtain ⟨_, _, rs, h3, h4, h5, _⟩ := hc
  have : h.Kp = (rs.map Prod.snd).toFinset := by ext r; rw [h5]; simp
  rw [this, List.toFinset_card_of_nodup h4, List.length_map, ← h3.length_eq, List.length_map]

theorem Coupled.card_le {f4 : PyFloat → PyFloat} {L : List Ind} {h : Hist} (hc : Coupled f4 L h) :
    h.Kp.card ≤ L.length := by rw [hc.card]; exact List.length_filter_le _ _

theorem eq_of_nodup_map {α β : Type} {f : α → β} {l : List α} (hn : (l.map f).Nodup) {a b : α}
    (ha : a ∈ l) (hb : b ∈ l) (h : f a = f b) : a = b :=
  List.inj_on_of_nodup_map hn ha hb h

/-- Taking one member out. -/
theorem coupled_leave (f4 : PyFloat → PyFloat) (prev : Ind) (L : List Ind) (h : Hist) (hg : Good f4 h)
    (hc : Coupled f4 (prev :: L) h) : Coupled f4 L (notInPop h prev) := by
  obtain ⟨hn, hk, rs, h3, h4, h5, h6, h7, h8⟩ := hc
  obtain ⟨key, hkey⟩ := Option.isSome_iff_exists.1 (hk prev (by simp))
  rw [List.map_cons, List.nodup_cons] at hn
  refine ⟨hn.2, fun m hm => hk m (by simp [hm]), ?_⟩
  unfold notInPop
  rw [if_neg (by simp [hg.held]), hkey]
  simp only
  have hmemL : ∀ p ∈ rs, p.1 = prev ∨ p.1 ∈ L := by
    intro p hp
    have : p.1 ∈ (prev :: L).filter usable := h3.mem_iff.1 (List.mem_map_of_mem hp)
    have := (List.mem_filter.1 this).1
    simpa using this
  cases hr : h.kr key with
  | none =>
    simp only
    have hus : usable prev = false := by
      by_contra hne
      have hus : usable prev = true := by simpa using hne
      have : prev ∈ rs.map Prod.fst := h3.mem_iff.2 (List.mem_filter.2 ⟨by simp, hus⟩)
      obtain ⟨p, hp, hpe⟩ := List.mem_map.1 this
      have := h7 p hp key (by rw [hpe, hkey])
      rw [hr] at this; simp at this
    refine ⟨rs, ?_, h4, h5, h6, h7, h8⟩
    rw [List.filter_cons_of_neg (by simp [hus])] at h3; exact h3
  | some r =>
    simp only
    obtain ⟨p, hp, hpk, hpr⟩ := h8 key r hr
    have hpprev : p.1 = prev := by
      rcases hmemL p hp with e | e
      · exact e
      · exact absurd (List.mem_map.2 ⟨p.1, e, by rw [hpk, hkey]⟩) hn.1
    have hus : usable prev = true := by
      have : p.1 ∈ (prev :: L).filter usable := h3.mem_iff.1 (List.mem_map_of_mem hp)
      rw [hpprev] at this; exact (List.mem_filter.1 this).2
    have hrK : r ∈ h.K := hg.kr key r hr
    have hg' := good_forget f4 h hg key
    rw [leavePop_eq f4 _ hg'.toGood0 r hrK]
    rw [List.filter_cons_of_pos (by simp [hus])] at h3
    have hpe := List.perm_cons_erase hp
    have hfst : (rs.map Prod.fst).Perm (p.1 :: (rs.erase p).map Prod.fst) := by
      have := hpe.map Prod.fst; simpa using this
    have hsnd : (rs.map Prod.snd).Perm (p.2 :: (rs.erase p).map Prod.snd) := by
      have := hpe.map Prod.snd; simpa using this
    have hnd := hsnd.nodup_iff.1 h4
    rw [List.nodup_cons] at hnd
    refine ⟨rs.erase p, ?_, hnd.2, ?_, ?_, ?_, ?_⟩
    · have := hfst.symm.trans h3
      rw [hpprev] at this
      exact (List.perm_cons _).1 this
    · intro x
      simp only [Finset.mem_erase, h5, hsnd.mem_iff, List.mem_cons, hpr]
      constructor
      · rintro ⟨hx, e | e⟩
        · exact absurd e hx
        · exact e
      · intro e
        refine ⟨fun e' => hnd.1 ?_, .inr e⟩
        rw [hpr, ← e']; exact e
    · intro q hq; exact h6 q (List.mem_of_mem_erase hq)
    · intro q hq k hqk
      have hq' := List.mem_of_mem_erase hq
      have hkk : k ≠ key := by
        rintro rfl
        have h1 := h7 q hq' k hqk
        rw [hr] at h1
        have : q.2 = p.2 := by rw [hpr]; exact (Option.some.inj h1).symm
        exact hnd.1 (this ▸ List.mem_map_of_mem hq)
      simp only [hkk, if_false]
      exact h7 q hq' k hqk
    · intro k x hkx
      simp only at hkx
      split at hkx
      · simp at hkx
      · rename_i hkk
        obtain ⟨q, hq, hqk, hqx⟩ := h8 k x hkx
        refine ⟨q, ?_, hqk, hqx⟩
        refine (List.mem_erase_of_ne ?_).2 hq
        rintro rfl
        rw [hqk] at hpk
        exact hkk (Option.some.inj hpk)

/-- Recording a new member. -/
theorem coupled_add (f4 : PyFloat → PyFloat) (hf : IsSingle f4) (i : Ind) (L : List Ind) (h : Hist)
    (hpos : 0 < h.nMax) (hg : Good f4 h) (hc : Coupled f4 L h) (ch : Finset Nat → Option Nat)
    (hleg : Legal f4 h (.add i false ch)) (hnc : NoCollision h (.add i false ch))
    (hkey : i.key.isSome = true) (hnew : i.key ∉ L.map Ind.key) :
    Coupled f4 (i :: L) (add f4 h i false ch).1 := by
  obtain ⟨hn, hk, rs, h3, h4, h5, h6, h7, h8⟩ := hc
  refine ⟨by rw [List.map_cons, List.nodup_cons]; exact ⟨hnew, hn⟩, ?_, ?_⟩
  · intro m hm; rcases List.mem_cons.1 hm with rfl | hm
    · exact hkey
    · exact hk m hm
  cases hi : i.sse.isFinite with
  | false =>
    rw [add_skipped f4 h i false ch hi]
    refine ⟨rs, ?_, h4, h5, h6, h7, h8⟩
    rw [List.filter_cons_of_neg (by simp [usable, hi])]; exact h3
  | true =>
    obtain ⟨h', h1, r, he, hg', ha, hcase⟩ := add_good f4 hf h hpos hg i false ch hleg hnc hi
    rw [he]
    obtain ⟨key, hkey⟩ := Option.isSome_iff_exists.1 hkey
    have hsame : h1.Kp = h.Kp ∧ h1.X = h.X ∧ h1.kr = h.kr ∧ r ∉ h.Kp := by
      rcases hcase with ⟨_, rfl⟩ | ⟨_, hv, _, hp⟩
      · exact ⟨rfl, rfl, rfl, fun e => ha.fresh (hg.kp r e)⟩
      · exact ⟨hp.kp, hp.X, hp.kr, ((hg.cK r).1 hv).2⟩
    obtain ⟨e1, e2, e3, e4⟩ := hsame
    have hr4 : ∀ p ∈ rs, p.2 ≠ r := fun p hp e =>
      e4 ((h5 r).2 (List.mem_map.2 ⟨p, hp, e⟩))
    refine ⟨(i, r) :: rs, ?_, ?_, ?_, ?_, ?_, ?_⟩
    · rw [List.filter_cons_of_pos (by simp [usable, hi])]
      simpa using h3
    · rw [List.map_cons, List.nodup_cons]
      exact ⟨fun e => e4 ((h5 r).2 e), h4⟩
    · intro x
      have := ha.kp
      simp only [Bool.false_eq_true, if_false] at this
      rw [this, e1, Finset.mem_insert, h5, List.map_cons, List.mem_cons]
    · intro p hp; rcases List.mem_cons.1 hp with rfl | hp
      · exact ha.row
      · rw [ha.others p.2 (hr4 p hp), e2]; exact h6 p hp
    · intro p hp k hpk
      rw [ha.kr]
      rcases List.mem_cons.1 hp with rfl | hp
      · simp only at hpk
        simp [hpk]
      · have hpL : p.1 ∈ L := by
          have : p.1 ∈ L.filter usable := h3.mem_iff.1 (List.mem_map_of_mem hp)
          exact (List.mem_filter.1 this).1
        have : ¬ (false = false ∧ i.key = some k) := by
          rintro ⟨_, e⟩
          exact hnew (List.mem_map.2 ⟨p.1, hpL, by rw [hpk, e]⟩)
        rw [if_neg this, e3]; exact h7 p hp k hpk
    · intro k x hkx
      rw [ha.kr] at hkx
      split at hkx
      · rename_i hcond
        exact ⟨(i, r), by simp, hcond.2, Option.some.inj hkx⟩
      · rw [e3] at hkx
        obtain ⟨p, hp, hq⟩ := h8 k x hkx
        exact ⟨p, List.mem_cons_of_mem _ hp, hq⟩

/-- Recording a losing challenger. -/
theorem coupled_record (f4 : PyFloat → PyFloat) (hf : IsSingle f4) (i : Ind) (L : List Ind) (h : Hist)
    (hpos : 0 < h.nMax) (hg : Good f4 h) (hc : Coupled f4 L h) (ch : Finset Nat → Option Nat)
    (hleg : Legal f4 h (.add i true ch)) (hnc : NoCollision h (.add i true ch)) :
    Coupled f4 L (add f4 h i true ch).1 := by
  obtain ⟨hn, hk, rs, h3, h4, h5, h6, h7, h8⟩ := hc
  refine ⟨hn, hk, ?_⟩
  cases hi : i.sse.isFinite with
  | false =>
    rw [add_skipped f4 h i true ch hi]
    exact ⟨rs, h3, h4, h5, h6, h7, h8⟩
  | true =>
    obtain ⟨h', h1, r, he, hg', ha, hcase⟩ := add_good f4 hf h hpos hg i true ch hleg hnc hi
    rw [he]
    have hsame : h1.Kp = h.Kp ∧ h1.X = h.X ∧ h1.kr = h.kr ∧ r ∉ h.Kp := by
      rcases hcase with ⟨_, rfl⟩ | ⟨_, hv, _, hp⟩
      · exact ⟨rfl, rfl, rfl, fun e => ha.fresh (hg.kp r e)⟩
      · exact ⟨hp.kp, hp.X, hp.kr, ((hg.cK r).1 hv).2⟩
    obtain ⟨e1, e2, e3, e4⟩ := hsame
    have hr4 : ∀ p ∈ rs, p.2 ≠ r := fun p hp e =>
      e4 ((h5 r).2 (List.mem_map.2 ⟨p, hp, e⟩))
    have hkp : h'.Kp = h.Kp := by have := ha.kp; simpa [e1] using this
    have hkr : ∀ k, h'.kr k = h.kr k := fun k => by have := ha.kr k; simpa [e3] using this
    refine ⟨rs, h3, h4, ?_, ?_, ?_, ?_⟩
    · intro x; rw [hkp]; exact h5 x
    · intro p hp; rw [ha.others p.2 (hr4 p hp), e2]; exact h6 p hp
    · intro p hp k; rw [hkr]; exact h7 p hp k
    · intro k x; rw [hkr]; exact h8 k x

end PopHistory
end Ade
