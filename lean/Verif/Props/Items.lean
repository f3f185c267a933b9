import Verif.Model.Items
import Verif.Props.Container

/-!
# The items of an individual (C151)
-/

set_option autoImplicit false

namespace Ade
namespace Items

open Container (Names)

/-- Specification: the index stands for the parameter at position `n`, of those with the given names: its number counted from the front,
or, if negative, from the back; or its name. -/
def Means (names : List String) : Index → ℕ → Prop
  | .int k, n => Names names.length k n
  | .npInt k, n => Names names.length k n
  | .name s, n => names[n]? = some s
  | .other, _ => False

theorem at_ok {α : Type} (l : List α) (k : ℤ) (n : ℕ) (h : Names l.length k n) : at' l k = .ok (l[n]'h.1) := by
  have hp := (Container.pos_iff _ _ _).2 h
  unfold at'
  simp [hp, h.1]

theorem at_error {α : Type} (l : List α) (k : ℤ) (h : ∀ n, ¬ Names l.length k n) : at' l k = .indexError := by
  unfold at'
  have : Container.pos l.length k = none := by
    cases hp : Container.pos l.length k with
    | none => rfl
    | some n => exact absurd ((Container.pos_iff _ _ _).1 hp) (h n)
  simp [this]

theorem idxOf_of (names : List String) (hn : names.Nodup) (s : String) (n : ℕ) (h : names[n]? = some s) :
    indexOf names s = some n := by
  obtain ⟨hlt, he⟩ := List.getElem?_eq_some_iff.1 h
  have hm : s ∈ names := he ▸ List.getElem_mem hlt
  unfold indexOf
  rw [if_pos hm, ← he, hn.idxOf_getElem n hlt]

/-- C151: reading an item by number or by name gives the value of that parameter, and an index that stands for none raises an
exception, if it is not an integer of numpy. -/
theorem C151_read_partial {α : Type} (names : List String) (hn : names.Nodup) (vals : List α) (hl : vals.length = names.length) (i : Index)
    (hi : ∀ k, i ≠ .npInt k) :
    (∀ n (h : n < vals.length), Means names i n → getItem names vals i = .ok vals[n]) ∧
    ((∀ n, ¬ Means names i n) → ∀ a, getItem names vals i ≠ .ok a) := by
  cases i with
  | int k =>
    refine ⟨fun n h hm => at_ok vals k n (by rw [hl]; exact hm), fun h a => ?_⟩
    rw [getItem, at_error vals k (by rw [hl]; exact h)]
    simp
  | npInt k => exact absurd rfl (hi k)
  | other => exact ⟨fun n h hm => hm.elim, fun _ a => by simp [getItem]⟩
  | name s =>
    constructor
    · intro n h hm
      unfold getItem
      dsimp only
      rw [idxOf_of names hn s n hm]
      exact at_ok vals n n ⟨h, Or.inl rfl⟩
    · intro h a
      unfold getItem indexOf
      have : s ∉ names := by
        intro hm
        obtain ⟨n, hlt, he⟩ := List.getElem_of_mem hm
        exact h n (List.getElem?_eq_some_iff.2 ⟨hlt, he⟩)
      simp [this]

/-- C151 fails for integers of numpy: reading always raises an exception, although writing with them works. -/
theorem C151_numpy_integer {α : Type} (names : List String) (vals : List α) (k : ℤ) (n : ℕ) (h : Names vals.length k n) (v : α) :
    getItem names vals (.npInt k) = .valueError ∧ setItem vals (.npInt k) v = (vals.set n v, .ok ()) := by
  refine ⟨rfl, ?_⟩
  unfold setItem setAt
  dsimp only
  rw [(Container.pos_iff _ _ _).2 h]

/-- C151: after writing an item by number, each index that can be read and stands for the same parameter gives the value written, and
every other one gives what it gave before; the number of values is the same. -/
theorem C151_written {α : Type} (names : List String) (hn : names.Nodup) (vals : List α) (hl : vals.length = names.length) (i : Index)
    (hi : ∀ s, i ≠ .name s) (n : ℕ) (hm : Means names i n) (v : α) :
    (setItem vals i v).2 = .ok () ∧ (setItem vals i v).1.length = vals.length ∧
    ∀ j, (∀ k, j ≠ .npInt k) → (Means names j n → getItem names (setItem vals i v).1 j = .ok v) ∧
      (¬ Means names j n → getItem names (setItem vals i v).1 j = getItem names vals j) := by
  have hset : setItem vals i v = (vals.set n v, .ok ()) := by
    cases i with
    | name s => exact absurd rfl (hi s)
    | other => exact hm.elim
    | int k =>
      unfold setItem setAt
      dsimp only
      rw [hl, (Container.pos_iff _ _ _).2 hm]
    | npInt k =>
      unfold setItem setAt
      dsimp only
      rw [hl, (Container.pos_iff _ _ _).2 hm]
  have hnl : n < vals.length := by
    rw [hl]
    cases i with
    | name s => exact absurd rfl (hi s)
    | other => exact hm.elim
    | int k => exact hm.1
    | npInt k => exact hm.1
  have hat : ∀ (k : ℤ) (m : ℕ), Names vals.length k m → m ≠ n → at' (vals.set n v) k = at' vals k := by
    intro k m hk hne
    rw [at_ok vals k m hk, at_ok (vals.set n v) k m (by rw [List.length_set]; exact hk)]
    congr 1
    exact List.getElem_set_of_ne (Ne.symm hne) v _
  rw [hset]
  refine ⟨rfl, List.length_set .., fun j hj => ⟨fun hm' => ?_, fun hm' => ?_⟩⟩
  · rw [(C151_read_partial names hn (vals.set n v) (by rw [List.length_set]; exact hl) j hj).1 n (by rw [List.length_set]; exact hnl) hm']
    simp
  · cases j with
    | npInt k => exact absurd rfl (hj k)
    | other => rfl
    | int k =>
      unfold getItem
      dsimp only
      by_cases h : ∃ m, Names vals.length k m
      · obtain ⟨m, hk⟩ := h
        exact hat k m hk (by rintro rfl; exact hm' (by rw [hl] at hk; exact hk))
      · rw [at_error vals k (fun m hk => h ⟨m, hk⟩), at_error (vals.set n v) k (fun m hk => h ⟨m, by rw [List.length_set] at hk; exact hk⟩)]
    | name s =>
      unfold getItem
      dsimp only
      cases hx : indexOf names s with
      | none => rfl
      | some m =>
        dsimp only
        unfold indexOf at hx
        split_ifs at hx with hmem
        have hx := Option.some.inj hx
        have hlt : m < names.length := by rw [← hx]; exact List.idxOf_lt_length_of_mem hmem
        refine hat m m ⟨by rw [hl]; exact hlt, Or.inl rfl⟩ ?_
        rintro rfl
        apply hm'
        show names[m]? = some s
        rw [List.getElem?_eq_some_iff]
        refine ⟨hlt, ?_⟩
        subst hx
        exact List.getElem_idxOf hlt

/-- C151: an index that is a number and stands for no parameter changes nothing when written to, and raises an `IndexError`; so does a
name. -/
theorem C151_not_written {α : Type} (names : List String) (vals : List α) (hl : vals.length = names.length) (i : Index) (v : α)
    (h : (∀ n, ¬ Means names i n) ∨ ∃ s, i = .name s) : setItem vals i v = (vals, .indexError) := by
  have key : ∀ k, (∀ n, ¬ Names names.length k n) → setAt vals k v = (vals, .indexError) := by
    intro k hk
    unfold setAt
    have : Container.pos vals.length k = none := by
      cases hp : Container.pos vals.length k with
      | none => rfl
      | some n => exact absurd ((Container.pos_iff _ _ _).1 hp) (by rw [hl]; exact hk n)
    rw [this]
  cases i with
  | name s => rfl
  | other => rfl
  | int k =>
    rcases h with h | ⟨s, h⟩
    · exact key k h
    · cases h
  | npInt k =>
    rcases h with h | ⟨s, h⟩
    · exact key k h
    · cases h

/-- C151: iterating gives the values that are read with the numbers 0, 1, ... and with the names, in this order. -/
theorem C151_iterated {α : Type} (names : List String) (hn : names.Nodup) (vals : List α) (hl : vals.length = names.length) :
    (iter vals).map Res.ok = (List.range vals.length).map (fun k => getItem names vals (.int (k : ℕ))) ∧
    (iter vals).map Res.ok = names.map (fun s => getItem names vals (.name s)) := by
  constructor
  · apply List.ext_getElem
    · simp [iter]
    · intro k h1 h2
      simp only [List.length_map, iter] at h1
      rw [List.getElem_map, List.getElem_map, List.getElem_range]
      exact ((C151_read_partial names hn vals hl (.int (k : ℕ)) (by simp)).1 k h1 ⟨by rw [← hl]; exact h1, Or.inl rfl⟩).symm
  · apply List.ext_getElem
    · simp [iter, hl]
    · intro k h1 h2
      simp only [List.length_map, iter] at h1 h2
      rw [List.getElem_map, List.getElem_map]
      exact ((C151_read_partial names hn vals hl (.name names[k]) (by simp)).1 k h1
        (List.getElem?_eq_some_iff.2 ⟨h2, rfl⟩)).symm

namespace Demo

def names : List String := ["b", "a", "c"]
def vals : List ℕ := [10, 20, 30]
example : getItem names vals (.int (-1)) = .ok 30 ∧ getItem names vals (.name "a") = .ok 20 ∧
    getItem names vals (.int 3) = .indexError ∧ getItem names vals (.name "x") = .valueError := by decide
example := (C151_read_partial names (by decide) vals rfl (.name "a") (by simp)).1 1 (by decide) rfl
example := C151_numpy_integer names vals (-1) 2 ⟨by decide, Or.inr rfl⟩ 5
example := C151_written names (by decide) vals rfl (.int (-1)) (by simp) 2 ⟨by decide, Or.inr rfl⟩ 5
example := C151_not_written names vals rfl (.name "a") 5 (Or.inr ⟨_, rfl⟩)
example := C151_iterated names (by decide) vals rfl

end Demo

end Items
end Ade
