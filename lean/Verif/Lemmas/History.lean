import Verif.Spec.History
import Verif.Lemmas.PyFloat

/-! Helper lemmas about the history: the invariant and its preservation. -/

set_option autoImplicit false

namespace Ade
namespace History
open ClosestPair

/-- Scores in order of the list are non-decreasing. -/
def Sorted (X : Nat → Row) (K : List Nat) : Prop :=
  K.Pairwise fun a b => (X b).sse.lt (X a).sse = false

/-- The invariant of a healthy history, apart from the key map. -/
structure Good0 (f4 : PyFloat → PyFloat) (h : Hist) : Prop where
  held : h.held = false
  nodup : h.K.Nodup
  rows : ∀ r ∈ h.K, r < h.nMax
  fixed : ∀ r ∈ h.K, f4 (h.X r).sse = (h.X r).sse
  finite : ∀ r ∈ h.K, (h.X r).finite = true
  sorted : Sorted h.X h.K
  kp : ∀ r ∈ h.Kp, r ∈ h.K
  kn : ∀ r ∈ h.Kn, r ∈ h.K
  disj : ∀ r ∈ h.Kp, r ∉ h.Kn
  cK : ∀ r, r ∈ h.cpf.K ↔ r ∈ h.K ∧ r ∉ h.Kp
  cKn : h.cpf.Kn = h.Kn

/-- The invariant of a healthy history. -/
structure Good (f4 : PyFloat → PyFloat) (h : Hist) : Prop extends Good0 f4 h where
  kr : ∀ k r, h.kr k = some r → r ∈ h.K

theorem Row.finite_sse {r : Row} (h : r.finite = true) : ∃ q, r.sse = .fin q := by
  unfold Row.finite at h
  cases hs : r.sse <;> simp_all [PyFloat.isFinite]

theorem isFinite_iff {x : PyFloat} : x.isFinite = true ↔ ∃ q, x = .fin q := by
  cases x <;> simp [PyFloat.isFinite]

theorem Row.finite_ne_nan {r : Row} (h : r.finite = true) : r.sse ≠ .nan := by
  obtain ⟨q, hq⟩ := Row.finite_sse h; simp [hq]

theorem good_init (f4 : PyFloat → PyFloat) (n : Nat) : Good f4 (init n) := by
  refine ⟨?_, by simp [init]⟩
  constructor <;> simp [init, Sorted, Finder.empty]

/-- How a state is related to the state before a record was written at a free row. -/
structure Added (f4 : PyFloat → PyFloat) (h h' : Hist) (i : Ind) (nip : Bool) (r : Nat) : Prop where
  fresh : r ∉ h.K
  perm : h'.K.Perm (r :: h.K)
  row : h'.X r = rowOf f4 i
  others : ∀ r', r' ≠ r → h'.X r' = h.X r'
  total : h'.nTotal = h.nTotal + 1
  nMax : h'.nMax = h.nMax
  kp : h'.Kp = if nip then h.Kp else insert r h.Kp
  kn : h'.Kn = if nip then insert r h.Kn else h.Kn
  kr : ∀ k, h'.kr k = if nip = false ∧ i.key = some k then some r else h.kr k

theorem position_spec (h : Hist) (s : PyFloat) (r : Nat) :
    h.K.insertIdx (position h s) r =
      h.K.takeWhile (fun r => (h.X r).sse.lt s) ++ r :: h.K.dropWhile (fun r => (h.X r).sse.lt s) := by
  unfold position; exact insertIdx_takeWhile _ _ _

/-- Inserting a new score at the searched position keeps the order. -/
theorem sorted_insert (f4 : PyFloat → PyFloat) (hf : IsSingle f4) (X X' : Nat → Row) (K : List Nat)
    (r : Nat) (s : PyFloat) (hs : s ≠ .nan) (hr : r ∉ K)
    (hfix : ∀ x ∈ K, f4 (X x).sse = (X x).sse ∧ (X x).sse ≠ .nan) (hsort : Sorted X K)
    (hX : ∀ x ∈ K, X' x = X x) (hXr : (X' r).sse = f4 s) :
    Sorted X' (K.takeWhile (fun r => (X r).sse.lt s) ++ r :: K.dropWhile (fun r => (X r).sse.lt s)) := by
  have hsplit := List.takeWhile_append_dropWhile (p := fun r => (X r).sse.lt s) (l := K)
  unfold Sorted at *
  have hsort' := hsort
  rw [← hsplit, List.pairwise_append] at hsort'
  obtain ⟨h1, h2, h3⟩ := hsort'
  have hmt : ∀ x ∈ K.takeWhile (fun r => (X r).sse.lt s), x ∈ K := fun x hx =>
    (List.takeWhile_sublist _).subset hx
  have hmd : ∀ x ∈ K.dropWhile (fun r => (X r).sse.lt s), x ∈ K := fun x hx =>
    (List.dropWhile_sublist _).subset hx
  have hlow : ∀ x ∈ K.takeWhile (fun r => (X r).sse.lt s), (X x).sse.lt s = true := fun x hx => by
    have := List.all_eq_true.1 (List.all_takeWhile (p := fun r => (X r).sse.lt s) (l := K)) x hx
    simpa using this
  have hhigh : ∀ x ∈ K.dropWhile (fun r => (X r).sse.lt s), (X x).sse.lt s = false := by
    cases hd : K.dropWhile (fun r => (X r).sse.lt s) with
    | nil => simp
    | cons d ds =>
      have hd0 : (X d).sse.lt s = false := by
        have := List.head?_dropWhile_not (p := fun r => (X r).sse.lt s) (l := K)
        rw [hd] at this; simpa using this
      rw [hd] at h2 hmd
      intro x hx
      rcases List.mem_cons.1 hx with rfl | hx'
      · exact hd0
      · have h4 := (List.pairwise_cons.1 h2).1 x hx'
        cases h5 : (X x).sse.lt s with
        | false => rfl
        | true =>
          have hdn := (hfix d (hmd d (by simp))).2
          have hxn := (hfix x (hmd x hx)).2
          rcases PyFloat.lt_trichotomy hdn hxn with h6 | h6 | h6
          · rw [PyFloat.lt_trans h6 h5] at hd0; cases hd0
          · rw [h6, h5] at hd0; cases hd0
          · rw [h6] at h4; cases h4
  rw [List.pairwise_append, List.pairwise_cons]
  refine ⟨?_, ⟨?_, ?_⟩, ?_⟩
  · refine h1.imp_of_mem ?_
    intro a b ha hb hab
    rw [hX a (hmt a ha), hX b (hmt b hb)]; exact hab
  · intro x hx
    rw [hX x (hmd x hx), hXr, ← (hfix x (hmd x hx)).1]
    exact hf.mono _ _ hs (hfix x (hmd x hx)).2 (hhigh x hx)
  · refine h2.imp_of_mem ?_
    intro a b ha hb hab
    rw [hX a (hmd a ha), hX b (hmd b hb)]; exact hab
  · intro a ha b hb
    rcases List.mem_cons.1 hb with rfl | hb
    · rw [hX a (hmt a ha), hXr, ← (hfix a (hmt a ha)).1]
      exact hf.mono _ _ (hfix a (hmt a ha)).2 hs (PyFloat.lt_asymm (hlow a ha))
    · rw [hX a (hmt a ha), hX b (hmd b hb)]
      exact h3 a ha b hb

/-- Writing a storable individual at a free row. -/
theorem finish_good (f4 : PyFloat → PyFloat) (hf : IsSingle f4) (h : Hist) (hg : Good0 f4 h) (i : Ind)
    (nip : Bool) (r : Nat) (hr : r ∉ h.K) (hrm : r < h.nMax) (hi : i.sse.isFinite = true)
    (hst : Storable f4 i) :
    ∃ h', finishAdd f4 h i nip (position h i.sse) r = (h', .row r) ∧ Good0 f4 h' ∧
      Added f4 h h' i nip r := by
  obtain ⟨hfin, hkey⟩ := hst
  have hfin : (rowOf f4 i).finite = true := hfin
  obtain ⟨key, hkey⟩ := Option.isSome_iff_exists.1 hkey
  have hsn : i.sse ≠ .nan := by obtain ⟨q, hq⟩ := isFinite_iff.1 hi; simp [hq]
  have hfix : ∀ x ∈ h.K, f4 (h.X x).sse = (h.X x).sse ∧ (h.X x).sse ≠ .nan := fun x hx =>
    ⟨hg.fixed x hx, Row.finite_ne_nan (hg.finite x hx)⟩
  have hKp : r ∉ h.Kp := fun hx => hr (hg.kp r hx)
  have hKn : r ∉ h.Kn := fun hx => hr (hg.kn r hx)
  have hcK : r ∉ h.cpf.K := fun hx => hr ((hg.cK r).1 hx).1
  have hperm : (h.K.insertIdx (position h i.sse) r).Perm (r :: h.K) := by
    rw [position_spec]
    refine List.perm_middle.trans ?_
    rw [List.takeWhile_append_dropWhile]
  have hsorted : Sorted (fun r' => if r' = r then rowOf f4 i else h.X r')
      (h.K.insertIdx (position h i.sse) r) := by
    rw [position_spec]
    apply sorted_insert f4 hf h.X _ h.K r i.sse hsn hr hfix hg.sorted
    · intro x hx
      have : x ≠ r := fun e => hr (e ▸ hx)
      simp [this]
    · simp [rowOf]
  have hmem : ∀ x, x ∈ h.K.insertIdx (position h i.sse) r ↔ x = r ∨ x ∈ h.K := fun x => by
    rw [hperm.mem_iff]; simp
  have hnd : (h.K.insertIdx (position h i.sse) r).Nodup := by
    rw [hperm.nodup_iff]; exact List.nodup_cons.2 ⟨hr, hg.nodup⟩
  cases nip with
  | true =>
    refine ⟨_, by simp [finishAdd, writeRecord, hrm, Finder.setRow, hfin]; rfl, ?_, ?_⟩
    · constructor
      · exact hg.held
      · exact hnd
      · intro x hx; rcases (hmem x).1 hx with rfl | hx
        · exact hrm
        · exact hg.rows x hx
      · intro x hx; by_cases e : x = r
        · simp [e, rowOf, hf.idem]
        · have := (hmem x).1 hx; simp [e] at this ⊢; exact hg.fixed x this
      · intro x hx; by_cases e : x = r
        · simpa [e] using hfin
        · have := (hmem x).1 hx; simp [e] at this ⊢; exact hg.finite x this
      · exact hsorted
      · intro x hx; exact (hmem x).2 (.inr (hg.kp x hx))
      · intro x hx; simp at hx; rcases hx with rfl | hx
        · exact (hmem _).2 (.inl rfl)
        · exact (hmem x).2 (.inr (hg.kn x hx))
      · intro x hx hx'; simp at hx hx'; rcases hx' with rfl | hx'
        · exact hKp hx
        · exact hg.disj x hx hx'
      · intro x
        simp only [Finset.mem_insert, hmem, hg.cK]
        constructor
        · rintro (rfl | h1)
          · exact ⟨.inl rfl, hKp⟩
          · exact ⟨.inr h1.1, h1.2⟩
        · rintro ⟨rfl | h1, h2⟩
          · exact .inl rfl
          · exact .inr ⟨h1, h2⟩
      · simp [hg.cKn]
    · constructor <;> simp [hr, hperm]
      intro r' e1 e2; exact absurd e2 e1
  | false =>
    refine ⟨_, by simp [finishAdd, writeRecord, hrm, hkey]; rfl, ?_, ?_⟩
    · have hclear : h.cpf.clearRow r = h.cpf := by simp [Finder.clearRow, hcK]
      constructor
      · exact hg.held
      · exact hnd
      · intro x hx; rcases (hmem x).1 hx with rfl | hx
        · exact hrm
        · exact hg.rows x hx
      · intro x hx; by_cases e : x = r
        · simp [e, rowOf, hf.idem]
        · have := (hmem x).1 hx; simp [e] at this ⊢; exact hg.fixed x this
      · intro x hx; by_cases e : x = r
        · simpa [e] using hfin
        · have := (hmem x).1 hx; simp [e] at this ⊢; exact hg.finite x this
      · exact hsorted
      · intro x hx; simp at hx; rcases hx with rfl | hx
        · exact (hmem _).2 (.inl rfl)
        · exact (hmem x).2 (.inr (hg.kp x hx))
      · intro x hx; exact (hmem x).2 (.inr (hg.kn x hx))
      · intro x hx; simp at hx; rcases hx with rfl | hx
        · exact hKn
        · exact hg.disj x hx
      · intro x
        simp only [hclear, Finset.mem_insert, hmem, hg.cK, not_or]
        constructor
        · rintro ⟨h1, h2⟩
          exact ⟨.inr h1, fun e => hr (e ▸ h1), h2⟩
        · rintro ⟨h0 | h1, h2, h3⟩
          · exact absurd h0 h2
          · exact ⟨h1, h3⟩
      · simp [hclear, hg.cKn]
    · constructor <;> simp [hr, hperm, hkey]
      · intro r' e1 e2; exact absurd e2 e1
      · intro k; by_cases e : k = key
        · simp [e]
        · have : ¬ key = k := fun e' => e e'.symm
          simp [e, this]

/-- The state after a purge of a record that is not a population member. -/
structure Purged (h h1 : Hist) (v : Nat) : Prop where
  K : h1.K = h.K.erase v
  X : h1.X = h.X
  total : h1.nTotal = h.nTotal
  nMax : h1.nMax = h.nMax
  kp : h1.Kp = h.Kp
  kn : h1.Kn = h.Kn.erase v
  kr : h1.kr = h.kr

theorem purge_good (f4 : PyFloat → PyFloat) (h : Hist) (hg : Good0 f4 h) (v : Nat) (hv : v ∈ h.cpf.K) :
    ∃ h1, purge h v = some h1 ∧ Purged h h1 v ∧ Good0 f4 h1 := by
  obtain ⟨hvK, hvp⟩ := (hg.cK v).1 hv
  have hkpe : h.Kp.erase v = h.Kp := Finset.erase_eq_of_notMem hvp
  refine ⟨{ h with K := h.K.erase v, cpf := h.cpf.clearRow v, Kp := h.Kp.erase v, Kn := h.Kn.erase v },
    by simp [purge, hvK], ⟨rfl, rfl, rfl, rfl, hkpe, rfl, rfl⟩, ?_⟩
  have hsub : ∀ x ∈ h.K.erase v, x ∈ h.K := fun x hx => List.mem_of_mem_erase hx
  have hm : ∀ x, x ∈ h.K.erase v ↔ x ≠ v ∧ x ∈ h.K := fun x => by
    rw [hg.nodup.mem_erase_iff]
  constructor
  · exact hg.held
  · exact hg.nodup.erase _
  · exact fun r hr => hg.rows r (hsub r hr)
  · exact fun r hr => hg.fixed r (hsub r hr)
  · exact fun r hr => hg.finite r (hsub r hr)
  · exact hg.sorted.sublist List.erase_sublist
  · intro r hr
    simp only [hkpe] at hr
    exact (hm r).2 ⟨fun e => hvp (e ▸ hr), hg.kp r hr⟩
  · intro r hr
    simp only [Finset.mem_erase] at hr
    exact (hm r).2 ⟨hr.1, hg.kn r hr.2⟩
  · intro r hr hr'
    simp only [hkpe] at hr
    simp only [Finset.mem_erase] at hr'
    exact hg.disj r hr hr'.2
  · intro r
    simp only [Finder.clearRow, hv, if_true, Finset.mem_erase, hkpe, hm, hg.cK]
    tauto
  · simp [Finder.clearRow, hv, hg.cKn]

/-- The complete effect of adding an individual with a usable score, in a healthy history. -/
theorem add_good (f4 : PyFloat → PyFloat) (hf : IsSingle f4) (h : Hist) (hpos : 0 < h.nMax)
    (hg : Good f4 h) (i : Ind) (nip : Bool) (ch : Finset Nat → Option Nat)
    (hleg : Legal f4 h (.add i nip ch)) (hnc : NoCollision h (.add i nip ch))
    (hi : i.sse.isFinite = true) :
    ∃ h' h1 r, add f4 h i nip ch = (h', .row r) ∧ Good f4 h' ∧ Added f4 h1 h' i nip r ∧
      ((h.K.length < h.nMax ∧ h1 = h) ∨
       (h.K.length = h.nMax ∧ r ∈ h.cpf.K ∧ ch h.cpf.K = some r ∧ Purged h h1 r)) := by
  obtain ⟨hst, hch, hfull⟩ := hleg
  have hst := hst hi
  have hheld := hg.held
  have hle := length_le_of_lt h.K h.nMax hg.nodup hg.rows
  have hkr : ∀ (h' h1 : Hist) (r : Nat), Added f4 h1 h' i nip r → (∀ x ∈ h.K, x = r ∨ x ∈ h1.K) →
      h1.kr = h.kr → ∀ k x, h'.kr k = some x → x ∈ h'.K := by
    intro h' h1 r ha hsub hk k x hx
    rw [ha.kr] at hx
    rw [ha.perm.mem_iff]
    split at hx
    · simp at hx; simp [hx]
    · rw [hk] at hx
      rcases hsub x (hg.kr k x hx) with e | e
      · simp [e]
      · simp [e]
  unfold add
  simp only [hi, hheld, if_true, Bool.false_eq_true, if_false]
  by_cases h0 : h.K.length = 0
  · have hK : h.K = [] := List.length_eq_zero_iff.1 h0
    have hp : position h i.sse = 0 := by simp [position, hK]
    obtain ⟨h', he, hg', ha⟩ := finish_good f4 hf h hg.toGood0 i nip 0 (by simp [hK]) hpos hi hst
    refine ⟨h', h, 0, by rw [if_pos h0]; rw [hp] at he; exact he, ⟨hg', ?_⟩, ha, .inl ⟨by omega, rfl⟩⟩
    exact hkr h' h 0 ha (fun x hx => .inr hx) rfl
  · rw [if_neg h0]
    have hs := sortRows_sorted h.K hg.nodup
    by_cases hlt : h.K.length < h.nMax
    · rw [if_pos hlt]
      obtain ⟨r, hr, hfresh, hbd⟩ := pickRow_fresh (sortRows h.K) h.K.length hs
        (by intro e; have := (sortRows_perm h.K).length_eq; rw [e] at this; simp at this; omega)
        (sortRows_perm h.K).length_eq hnc
      have hrm : r < h.nMax := by
        rcases hbd with h1 | ⟨x, hx, hrx⟩
        · omega
        · have := hg.rows x (mem_sortRows.1 hx); omega
      have hrK : r ∉ h.K := fun e => hfresh (mem_sortRows.2 e)
      obtain ⟨h', he, hg', ha⟩ := finish_good f4 hf h hg.toGood0 i nip r hrK hrm hi hst
      refine ⟨h', h, r, ?_, ⟨hg', hkr h' h r ha (fun x hx => .inr hx) rfl⟩, ha, .inl ⟨hlt, rfl⟩⟩
      simp only [placeAndFinish, hr]; exact he
    · rw [if_neg hlt]
      have hlen : h.K.length = h.nMax := by omega
      obtain ⟨hcap, hcard⟩ := hfull hlen
      have hne : h.cpf.K.Nonempty := by
        have hall := all_rows_of_full h.K h.nMax hg.nodup hg.rows hlen
        by_contra hemp
        rw [Finset.not_nonempty_iff_eq_empty] at hemp
        have : Finset.range h.nMax ⊆ h.Kp := by
          intro x hx
          simp at hx
          by_contra hxp
          have := (hg.cK x).2 ⟨hall x hx, hxp⟩
          rw [hemp] at this; simp at this
        have := Finset.card_le_card this
        simp at this; omega
      obtain ⟨v, hv, hchv⟩ := hch h.cpf.K hne
      obtain ⟨h1, hp1, hpur, hg1⟩ := purge_good f4 h hg.toGood0 v hv
      have hvK := ((hg.cK v).1 hv).1
      have hlen1 : h1.K.length + 1 = h.nMax := by
        rw [hpur.K, List.length_erase_of_mem hvK]; omega
      have hs1 := sortRows_sorted h1.K hg1.nodup
      obtain ⟨r, hr, hfresh, hrm⟩ := pickRow_full (sortRows h1.K) h.nMax hs1 hcap
        (by rw [(sortRows_perm h1.K).length_eq]; exact hlen1)
        (fun x hx => by have := hg1.rows x (mem_sortRows.1 hx); rwa [hpur.nMax] at this)
      have hrK1 : r ∉ h1.K := fun e => hfresh (mem_sortRows.2 e)
      have hrv : r = v := by
        by_contra hne'
        apply hrK1
        rw [hpur.K, hg.nodup.mem_erase_iff]
        exact ⟨hne', all_rows_of_full h.K h.nMax hg.nodup hg.rows hlen r hrm⟩
      subst hrv
      obtain ⟨h', he, hg', ha⟩ := finish_good f4 hf h1 hg1 i nip r hrK1 (by rw [hpur.nMax]; exact hrm)
        hi hst
      refine ⟨h', h1, r, ?_, ⟨hg', ?_⟩, ha, .inr ⟨hlen, hv, hchv, hpur⟩⟩
      · simp only [hchv, hp1, placeAndFinish, hlen, hr]; exact he
      · apply hkr h' h1 r ha _ hpur.kr
        intro x hx
        by_cases e : x = r
        · exact .inl e
        · exact .inr (by rw [hpur.K, hg.nodup.mem_erase_iff]; exact ⟨e, hx⟩)

theorem leavePop_eq (f4 : PyFloat → PyFloat) (h : Hist) (hg : Good0 f4 h) (r : Nat) (hr : r ∈ h.K) :
    leavePop h r = { h with Kp := h.Kp.erase r, cpf := ⟨insert r h.cpf.K, h.cpf.Kn⟩ } := by
  have := hg.rows r hr
  have hfin := hg.finite r hr
  simp [leavePop, this, Finder.setRow, hfin]

theorem leavePop_good (f4 : PyFloat → PyFloat) (h : Hist) (hg : Good f4 h) (r : Nat) (hr : r ∈ h.K) :
    Good f4 (leavePop h r) := by
  rw [leavePop_eq f4 h hg.toGood0 r hr]
  refine ⟨?_, hg.kr⟩
  constructor
  · exact hg.held
  · exact hg.nodup
  · exact hg.rows
  · exact hg.fixed
  · exact hg.finite
  · exact hg.sorted
  · intro x hx; simp at hx; exact hg.kp x hx.2
  · exact hg.kn
  · intro x hx; simp at hx; exact hg.disj x hx.2
  · intro x
    simp only [Finset.mem_insert, hg.cK, Finset.mem_erase, not_and]
    constructor
    · rintro (rfl | h1)
      · exact ⟨hr, fun e => absurd rfl e⟩
      · exact ⟨h1.1, fun _ => h1.2⟩
    · rintro ⟨h1, h2⟩
      by_cases e : x = r
      · exact .inl e
      · exact .inr ⟨h1, h2 e⟩
  · exact hg.cKn

theorem good_forget (f4 : PyFloat → PyFloat) (h : Hist) (hg : Good f4 h) (key : Int) :
    Good f4 { h with kr := fun k' => if k' = key then none else h.kr k' } := by
  refine ⟨⟨hg.held, hg.nodup, hg.rows, hg.fixed, hg.finite, hg.sorted, hg.kp, hg.kn, hg.disj, hg.cK,
    hg.cKn⟩, ?_⟩
  intro k r hr
  simp only at hr
  split at hr
  · simp at hr
  · exact hg.kr k r hr

theorem notInPop_good (f4 : PyFloat → PyFloat) (h : Hist) (hg : Good f4 h) (i : Ind) :
    Good f4 (notInPop h i) := by
  unfold notInPop
  rw [if_neg (by simp [hg.held])]
  cases hk : i.key with
  | none => exact hg
  | some key =>
    simp only
    cases hr : h.kr key with
    | none => exact hg
    | some r =>
      exact leavePop_good f4 _ (good_forget f4 h hg key) r (hg.kr key r hr)

theorem purgePop_good (f4 : PyFloat → PyFloat) (h : Hist) (hg : Good f4 h) :
    Good f4 (purgePop h) := by
  unfold purgePop
  simp only [hg.held, Bool.false_eq_true, if_false]
  have hknsub : h.Kn \ h.Kp = h.Kn := by
    ext x; simp only [Finset.mem_sdiff, and_iff_left_iff_imp]
    exact fun hx hp => hg.disj x hp hx
  refine ⟨?_, by simp⟩
  constructor
  · rfl
  · exact hg.nodup.filter _
  · intro r hr; exact hg.rows r (List.mem_filter.1 hr).1
  · intro r hr; exact hg.fixed r (List.mem_filter.1 hr).1
  · intro r hr; exact hg.finite r (List.mem_filter.1 hr).1
  · exact hg.sorted.sublist List.filter_sublist
  · simp
  · intro r hr
    simp only [hknsub] at hr
    exact List.mem_filter.2 ⟨hg.kn r hr, by simpa using fun hp => hg.disj r hp hr⟩
  · simp
  · intro r
    simp only [Finset.mem_sdiff, hg.cK, List.mem_filter, decide_eq_true_eq, Finset.notMem_empty,
      not_false_eq_true, and_true]
    tauto
  · simp only [hknsub, hg.cKn]
    ext x; simp only [Finset.mem_sdiff, Finset.mem_inter, hg.cK, and_iff_left_iff_imp]
    intro _; tauto

theorem clear_good (f4 : PyFloat → PyFloat) (h : Hist) (hg : Good f4 h) : Good f4 (clear h) := by
  unfold clear
  simp only [hg.held, Bool.false_eq_true, if_false]
  refine ⟨?_, by simp⟩
  constructor <;> simp [Sorted, Finder.empty]

theorem add_skipped (f4 : PyFloat → PyFloat) (h : Hist) (i : Ind) (nip : Bool)
    (ch : Finset Nat → Option Nat) (hi : i.sse.isFinite = false) :
    add f4 h i nip ch = (h, .skipped) := by
  simp [add, hi]

theorem step_nMax (f4 : PyFloat → PyFloat) (h : Hist) (op : Op) : (step f4 h op).nMax = h.nMax := by
  have hfin : ∀ (h : Hist) (i : Ind) (nip : Bool) (k r : Nat), (finishAdd f4 h i nip k r).1.nMax = h.nMax := by
    intro h i nip k r
    unfold finishAdd writeRecord
    split
    · rename_i heq
      split at heq
      · cases nip
        · simp at heq; split at heq
          · simp at heq
          · simp at heq; rw [← heq]
        · simp [Finder.setRow] at heq
          split at heq
          · simp at heq
          · simp at heq; rw [← heq]
      · simp at heq
    · rename_i heq
      split at heq
      · cases nip
        · simp at heq; split at heq
          · simp at heq; rw [← heq]
          · simp at heq
        · simp [Finder.setRow] at heq
          split at heq
          · simp at heq; rw [← heq]
          · simp at heq
      · simp at heq; rw [← heq]
  have hplace : ∀ (h : Hist) (i : Ind) (nip : Bool) (N : Nat), (placeAndFinish f4 h i nip N).1.nMax = h.nMax := by
    intro h i nip N
    unfold placeAndFinish
    split
    · rfl
    · exact hfin _ _ _ _ _
  have hleave : ∀ (h : Hist) (r : Nat), (leavePop h r).nMax = h.nMax := by
    intro h r; unfold leavePop; simp only; split
    · split <;> rfl
    · rfl
  cases op with
  | add i nip ch =>
    simp only [step, add]
    split
    · split
      · rfl
      · split
        · exact hfin _ _ _ _ _
        · split
          · exact hplace _ _ _ _
          · split
            · rfl
            · split
              · rfl
              · rename_i h1 hp
                rw [hplace]
                unfold purge at hp; split at hp
                · simp at hp; rw [← hp]
                · simp at hp
    · rfl
  | notInPop i =>
    simp only [step, notInPop]; split
    · rfl
    · split
      · rfl
      · split
        · rfl
        · exact hleave _ _
  | notInPopRow r => simp only [step, notInPopRow]; split <;> simp [hleave]
  | purgePop => simp only [step, purgePop]; split <;> rfl
  | clear => simp only [step, clear]; split <;> rfl

theorem step_good (f4 : PyFloat → PyFloat) (hf : IsSingle f4) (h : Hist) (hpos : 0 < h.nMax)
    (hg : Good f4 h) (op : Op) (hl : Legal f4 h op) (hn : NoCollision h op) :
    Good f4 (step f4 h op) := by
  cases op with
  | add i nip ch =>
    cases hi : i.sse.isFinite with
    | false => simp only [step, add_skipped f4 h i nip ch hi]; exact hg
    | true =>
      obtain ⟨h', h1, r, he, hg', _⟩ := add_good f4 hf h hpos hg i nip ch hl hn hi
      simp only [step, he]; exact hg'
  | notInPop i => exact notInPop_good f4 h hg i
  | notInPopRow r =>
    simp only [step, notInPopRow, hg.held, Bool.false_eq_true, if_false]
    exact leavePop_good f4 h hg r hl
  | purgePop => exact purgePop_good f4 h hg
  | clear => exact clear_good f4 h hg

theorem reach_nMax {f4 : PyFloat → PyFloat} {n : Nat} {h : Hist} (hr : Reach f4 n h) :
    h.nMax = n ∧ 0 < n := by
  induction hr with
  | init hpos => exact ⟨rfl, hpos⟩
  | step h op _ _ _ ih => rw [step_nMax]; exact ih

theorem reach_good {f4 : PyFloat → PyFloat} (hf : IsSingle f4) {n : Nat} {h : Hist}
    (hr : Reach f4 n h) : Good f4 h := by
  induction hr with
  | init _ => exact good_init f4 n
  | step h op hr hl hn ih =>
    have := reach_nMax hr
    exact step_good f4 hf h (by omega) ih op hl hn

/-- Rows in use are the first ones. -/
def Contiguous (h : Hist) : Prop := ∀ r, r ∈ h.K ↔ r < h.K.length

theorem contiguous_not_collides (K : List Nat) (hc : ∀ r, r ∈ K ↔ r < K.length) :
    ¬ Collides (sortRows K) K.length := by
  have hlen := (sortRows_perm K).length_eq
  rintro (⟨h1, h2⟩ | ⟨rest, h1, h2⟩)
  · have : (2 : Nat) ∈ K := by rw [← mem_sortRows, h1]; simp
    have := (hc 2).1 this; omega
  · have : K.length ∈ K := by
      have : K.length ∈ sortRows K := by rw [h2]; simp
      exact mem_sortRows.1 this
    have := (hc _).1 this; omega

theorem contiguous_of_full {f4 : PyFloat → PyFloat} {h : Hist} (hg : Good0 f4 h)
    (hl : h.K.length = h.nMax) : Contiguous h := by
  intro r
  constructor
  · intro hr; have := hg.rows r hr; omega
  · intro hr; exact all_rows_of_full h.K h.nMax hg.nodup hg.rows hl r (by omega)

theorem scan_range (N a n : Nat) (h : a + n ≤ N) : scan N (List.range' a n) = none := by
  induction n generalizing a with
  | zero => simp [scan]
  | succ n ih =>
    match n, ih with
    | 0, _ => simp [List.range', scan]
    | 1, _ => simp [List.range', scan]
    | n+2, ih =>
      have := ih (a+1) (by omega)
      simp only [List.range'] at this ⊢
      unfold scan
      rw [if_neg (by omega), if_neg (by omega), if_neg (by omega), if_neg (by omega)]
      exact this

theorem pickRow_contiguous (K : List Nat) (hn : K.Nodup) (hne : K ≠ [])
    (hc : ∀ r, r ∈ K ↔ r < K.length) : pickRow (sortRows K) K.length = some K.length := by
  have hperm : (sortRows K).Perm (List.range' 0 K.length) := by
    rw [List.perm_ext_iff_of_nodup ((sortRows_perm K).nodup_iff.2 hn) List.nodup_range']
    intro a; rw [mem_sortRows, hc]; simp
  have heq : sortRows K = List.range' 0 K.length :=
    hperm.eq_of_pairwise (fun a b _ _ h1 h2 => by omega)
      ((sortRows_sorted K hn)) List.pairwise_lt_range'
  rw [heq]
  have hscan := scan_range K.length 0 K.length (by omega)
  obtain ⟨n, hK⟩ : ∃ n, K.length = n + 1 := ⟨K.length - 1, by
    have := List.length_pos_iff.2 hne; omega⟩
  have hlast : ∀ (h0 : List.range' 0 K.length ≠ []), (List.range' 0 K.length).getLast h0 = K.length - 1 := by
    intro h0; simp [List.getLast_range']
  rw [hK] at hscan hlast ⊢
  rw [List.range'_succ] at hscan hlast ⊢
  rw [pickRow_none _ _ _ hscan, if_neg (by simp), hlast (by simp)]
  simp

theorem reachNP_reach {f4 : PyFloat → PyFloat} (hf : IsSingle f4) {n : Nat} {h : Hist}
    (hr : ReachNP f4 n h) : Reach f4 n h ∧ Contiguous h := by
  induction hr with
  | init hpos => exact ⟨.init hpos, by intro r; simp [init]⟩
  | step h op hr hl hop ih =>
    obtain ⟨ih1, ih2⟩ := ih
    have hg := reach_good hf ih1
    have hnm := reach_nMax ih1
    have hnc : NoCollision h op := by
      cases op <;> simp only [NoCollision]
      exact contiguous_not_collides h.K ih2
    refine ⟨.step h op ih1 hl hnc, ?_⟩
    have hleave : ∀ (h : Hist) r, (leavePop h r).K = h.K := by
      intro h r; unfold leavePop; simp only; split
      · split <;> rfl
      · rfl
    cases op with
    | add i nip ch =>
      cases hi : i.sse.isFinite with
      | false => simp only [step, add_skipped f4 h i nip ch hi]; exact ih2
      | true =>
        obtain ⟨h', h1, r, he, hg', ha, hcase⟩ := add_good f4 hf h (by omega) hg i nip ch hl hnc hi
        simp only [step, he]
        rcases hcase with ⟨hlt, rfl⟩ | ⟨hfull, hv, _, hp⟩
        · -- the row picked is the next one
          have hr0 : r = h1.K.length := by
            by_cases h0 : h1.K.length = 0
            · have hK : h1.K = [] := List.length_eq_zero_iff.1 h0
              simp only [add, hi, hg.held, if_true, Bool.false_eq_true, if_false, h0] at he
              unfold finishAdd at he
              split at he <;> simp at he
              omega
            · have hpr := pickRow_contiguous h1.K hg.nodup (by
                intro e; rw [e] at h0; simp at h0) ih2
              simp only [add, hi, hg.held, if_true, Bool.false_eq_true, if_false, h0, hlt,
                placeAndFinish, hpr] at he
              unfold finishAdd at he
              split at he <;> simp at he
              omega
          intro x
          rw [ha.perm.mem_iff, ha.perm.length_eq]
          simp only [List.mem_cons, List.length_cons, ih2 x]
          omega
        · have hr' := (hg.cK r).1 hv
          have hlen' : h'.K.length = h'.nMax := by
            rw [ha.perm.length_eq, ha.nMax, hp.nMax, List.length_cons, hp.K,
              List.length_erase_of_mem hr'.1]
            omega
          exact contiguous_of_full hg'.toGood0 hlen'
    | notInPop i =>
      simp only [step, notInPop, hg.held, Bool.false_eq_true, if_false]
      split
      · exact ih2
      · split
        · exact ih2
        · unfold Contiguous; rw [hleave]; exact ih2
    | notInPopRow r =>
      simp only [step, notInPopRow, hg.held, Bool.false_eq_true, if_false]
      unfold Contiguous; rw [hleave]; exact ih2
    | purgePop => exact absurd rfl hop
    | clear =>
      simp only [step, clear, hg.held, Bool.false_eq_true, if_false]
      intro r; simp

end History
end Ade
