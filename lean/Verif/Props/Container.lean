import Verif.Model.Container
import Verif.Props.PopHistory

/-!
# C113: a population is used like a sequence of individuals
-/

set_option autoImplicit false

namespace Ade
namespace Container
open History PopHistory

/-- Specification: index `k` stands for position `n` of a sequence of length `len`: counted from the front, or, if
negative, from the back. -/
def Names (len : ℕ) (k : ℤ) (n : ℕ) : Prop := n < len ∧ (k = n ∨ k = n - len)

theorem pos_iff (len : ℕ) (k : ℤ) (n : ℕ) : pos len k = some n ↔ Names len k n := by
  unfold pos Names
  split
  · split
    · simp only [Option.some.injEq]; omega
    · simp only [reduceCtorEq, false_iff]; omega
  · split
    · simp only [Option.some.injEq]; omega
    · simp only [reduceCtorEq, false_iff]; omega

theorem pos_none (len : ℕ) (k : ℤ) : pos len k = none ↔ k < -len ∨ (len : ℤ) ≤ k := by
  unfold pos
  split <;> split <;> simp only [reduceCtorEq, false_iff, true_iff] <;> omega

theorem item_ok {α : Type} (l : List α) (k : ℤ) (n : ℕ) (h : Names l.length k n) :
    item l k = .ok (l[n]'h.1) := by
  have hp := (pos_iff _ _ _).2 h
  unfold item
  simp [hp, h.1]

/-- C113: reading an item. -/
theorem C113_get (s : PH) (k : ℤ) :
    (∀ n (h : Names s.members.length k n), getItem s k = .ok (s.members[n]'h.1)) ∧
    ((∀ n, ¬ Names s.members.length k n) → getItem s k = .indexError) := by
  constructor
  · intro n h
    exact item_ok _ _ _ h
  · intro h
    unfold getItem item
    have : pos s.members.length k = none := by
      cases hp : pos s.members.length k with
      | none => rfl
      | some n => exact absurd ((pos_iff _ _ _).1 hp) (h n)
    simp [this]

/-- C113: replacing an individual, with an index from the front or from the back: the new one is at that position, all
others stay, and the history is told that the former one is no member any more and gets the new one. -/
theorem C113_set (f4 : PyFloat → PyFloat) (s : PH) (k : ℤ) (n : ℕ) (h : Names s.members.length k n) (i : Ind)
    (ch : Finset ℕ → Option ℕ) :
    ∃ s', setItem f4 s k (.individual i) ch = (s', .ok ()) ∧ s'.members.length = s.members.length ∧
      getItem s' k = .ok i ∧ (∀ m, m ≠ n → s'.members[m]? = s.members[m]?) ∧
      s'.hist = (add f4 (notInPop s.hist (s.members[n]'h.1)) i false ch).1 := by
  have hp := (pos_iff _ _ _).2 h
  have hk : k < s.members.length := by have := h.1; rcases h.2 with h' | h' <;> omega
  refine ⟨⟨s.members.set n i, (add f4 (notInPop s.hist (s.members[n]'h.1)) i false ch).1⟩, ?_, ?_, ?_, ?_, rfl⟩
  · unfold setItem
    simp only [hk, if_true, item_ok _ _ _ h, hp]
  · simp
  · have h' : Names (s.members.set n i).length k n := by rw [List.length_set]; exact h
    unfold getItem
    rw [item_ok _ _ _ h']
    simp
  · intro m hm
    exact List.getElem?_set_ne (Ne.symm hm)

/-- C113: it is the same as the assignment of `Verif/Model/PopHistory.lean`, so that what is proved there (C41) holds for
negative indices, too. -/
theorem C113_set_is_assign (f4 : PyFloat → PyFloat) (s : PH) (k : ℤ) (n : ℕ) (h : Names s.members.length k n) (i : Ind)
    (ch : Finset ℕ → Option ℕ) : (setItem f4 s k (.individual i) ch).1 = step f4 s (.assign n i ch) := by
  have hp := (pos_iff _ _ _).2 h
  have hk : k < s.members.length := by have := h.1; rcases h.2 with h' | h' <;> omega
  unfold setItem
  simp only [hk, if_true, item_ok _ _ _ h, hp, PopHistory.step, List.getElem?_eq_getElem h.1]

/-- C113, what does hold: an assignment that raises changes nothing, unless the index is too large. -/
theorem C113_refused_partial (f4 : PyFloat → PyFloat) (s : PH) (k : ℤ) (o : Obj) (ch : Finset ℕ → Option ℕ) :
    (o = .other → setItem f4 s k o ch = (s, .typeError)) ∧
    (k < -s.members.length → ∀ i, o = .individual i → setItem f4 s k o ch = (s, .indexError)) := by
  constructor
  · rintro rfl
    rfl
  · rintro hk i rfl
    have hp := (pos_none s.members.length k).2 (.inl hk)
    have h1 : k < s.members.length := by omega
    unfold setItem item
    simp [h1, hp]

/-- C113, negation: with an index that is too large the assignment raises an `IndexError`, but the history has the
individual, marked as a member. -/
theorem C113_ghost (f4 : PyFloat → PyFloat) (s : PH) (k : ℤ) (hk : (s.members.length : ℤ) ≤ k) (i : Ind)
    (ch : Finset ℕ → Option ℕ) :
    setItem f4 s k (.individual i) ch = (⟨s.members, (add f4 s.hist i false ch).1⟩, .indexError) := by
  unfold setItem
  simp [not_lt.2 hk]

/-- C113, negation: two members, and three records marked as members after an assignment that was refused. -/
theorem C113_ghost_marked : ∃ s : PH, s = run id ⟨[], init 10⟩ [.append (mk 1 1) highest, .append (mk 2 2) highest] ∧
    (setItem id s 2 (.individual (mk 3 3)) highest).2 = .indexError ∧
    (setItem id s 2 (.individual (mk 3 3)) highest).1.members = [mk 1 1, mk 2 2] ∧
    (setItem id s 2 (.individual (mk 3 3)) highest).1.hist.Kp.card = 3 :=
  ⟨_, rfl, by decide +kernel, by decide +kernel, by decide +kernel⟩

/-- C113: `in`: an individual is said to be in the population if it is one of the members, or equal to one in score and
values. -/
theorem C113_contains (l : List Ref) (x : Ref) :
    contains l x = true ↔ ∃ e ∈ l, e.id = x.id ∨ (e.ind.SSE.eq x.ind.SSE = true ∧ e.ind.values = x.ind.values) := by
  simp [contains, Individual.eq, Individual.equals]

/-- C113: every member is in the population, whatever its score. -/
theorem C113_members_contained (l : List Ref) (x : Ref) (h : x ∈ l) : contains l x = true := by
  rw [C113_contains]
  exact ⟨x, h, .inl rfl⟩

theorem collect_ok {α : Type} (l : List α) (ks : List ℤ) (ns : List ℕ)
    (h : List.Forall₂ (Names l.length) ks ns) (found : List α) :
    collect l ks found = collect l [] (found ++ ns.filterMap (l[·]?)) := by
  induction h generalizing found with
  | nil => simp
  | @cons k n ks ns hk _ ih =>
    have h1 : ¬ (l.length : ℤ) ≤ k := by have := hk.1; rcases hk.2 with h' | h' <;> omega
    have hstep : collect l (k :: ks) found = collect l ks (found ++ [l[n]'hk.1]) := by
      rw [collect]
      simp only [h1, if_false, item_ok _ _ _ hk]
    rw [hstep, ih, List.filterMap_cons, List.getElem?_eq_getElem hk.1, List.append_assoc]
    rfl

/-- C113, what does hold: for two or more indices, or none, `individuals` returns the list of the individuals at these
indices. -/
theorem C113_individuals_partial {α : Type} (l : List α) (ks : List ℤ) (ns : List ℕ)
    (h : List.Forall₂ (Names l.length) ks ns) (hlen : ks.length ≠ 1) :
    ∃ is, individuals l ks = .list is ∧ is.map some = ns.map (l[·]?) := by
  have hmap : (ns.filterMap (l[·]?)).map some = ns.map (l[·]?) := by
    clear hlen
    induction h with
    | nil => rfl
    | @cons k n ks ns hk _ ih => simp [hk.1, ih]
  refine ⟨ns.filterMap (l[·]?), ?_, hmap⟩
  unfold individuals
  rw [collect_ok l ks ns h, List.nil_append]
  have hl : (ns.filterMap (l[·]?)).length ≠ 1 := by
    have := congrArg List.length hmap
    simp only [List.length_map] at this
    rw [this, ← h.length_eq]
    exact hlen
  generalize ns.filterMap (l[·]?) = f at hl
  match f, hl with
  | [], _ => rfl
  | [a], hl => exact absurd rfl hl
  | _ :: _ :: _, _ => rfl

/-- C113, negation: for one index `individuals` returns no list but the individual itself, contrary to its documentation.
For an index that is too large it returns `None`, whatever the indices before it are. -/
theorem C113_individuals_other {α : Type} (l : List α) :
    (∀ k n (h : Names l.length k n), individuals l [k] = .one (l[n]'h.1)) ∧
    ∀ ks ns k rest, List.Forall₂ (Names l.length) ks ns → (l.length : ℤ) ≤ k →
      individuals l (ks ++ k :: rest) = .none := by
  constructor
  · intro k n h
    unfold individuals
    rw [collect_ok l [k] [n] (.cons h .nil)]
    simp [collect, h.1]
  · intro ks ns k rest h hk
    have : ∀ found, collect l (ks ++ k :: rest) found = .none := by
      induction h with
      | nil => intro found; rw [List.nil_append, collect]; simp [hk]
      | @cons k' n ks ns hk' _ ih =>
        intro found
        have h1 : ¬ (l.length : ℤ) ≤ k' := by have := hk'.1; rcases hk'.2 with h' | h' <;> omega
        rw [List.cons_append, collect]
        simp only [h1, if_false, item_ok _ _ _ hk']
        exact ih _
    exact this []

/-! ## Non-vacuity -/

/-- Two members. -/
def exTwo : PH := run id ⟨[], init 10⟩ [.append (mk 1 1) highest, .append (mk 2 2) highest]

theorem exTwo_len : exTwo.members.length = 2 := by decide +kernel

example := (C113_get exTwo (-1)).1 1 (by rw [exTwo_len]; exact ⟨by decide, by decide⟩)

example := C113_set id exTwo (-1) 1 (by rw [exTwo_len]; exact ⟨by decide, by decide⟩) (mk 3 3) highest

example := C113_set_is_assign id exTwo 0 0 (by rw [exTwo_len]; exact ⟨by decide, by decide⟩) (mk 3 3) highest

example := (C113_refused_partial id exTwo (-3) (.individual (mk 3 3)) highest).2 (by rw [exTwo_len]; decide) _ rfl

example := C113_ghost id exTwo 2 (by rw [exTwo_len]; decide) (mk 3 3) highest

/-- A member without usable score is in the population. -/
example := C113_members_contained [⟨1, ⟨some .nan, [1]⟩⟩] ⟨1, ⟨some .nan, [1]⟩⟩ (List.mem_singleton_self _)

example := C113_individuals_partial [5, 6, 7] [0, -1] [0, 2]
  (.cons ⟨by decide, by decide⟩ (.cons ⟨by decide, by decide⟩ .nil)) (by decide)

example := (C113_individuals_other [5, 6, 7]).1 (-1) 2 ⟨by decide, by decide⟩

example := (C113_individuals_other [5, 6, 7]).2 [0] [0] 3 [1] (.cons ⟨by decide, by decide⟩ .nil) (by decide)

end Container
end Ade
