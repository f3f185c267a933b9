import Verif.Model.ParamBounds
import Verif.Props.ParamManager

/-!
# C119: one pair of bounds for each parameter
-/

set_option autoImplicit false

namespace Ade
namespace ParamBounds

variable {α β γ : Type}

theorem broadcast_eq (f : α → β → γ) (xs : List α) (ys : List β) (h : xs.length = ys.length) :
    broadcast f xs ys = some (List.zipWith f xs ys) := by
  unfold broadcast
  split
  · match ys, h with
    | [y], _ => rfl
  · match xs, h with
    | [x], _ => rfl
  · rw [if_pos h]

theorem broadcast_none (f : α → β → γ) (xs : List α) (ys : List β) (h : xs.length ≠ ys.length) (hx : xs.length ≠ 1)
    (hy : ys.length ≠ 1) : broadcast f xs ys = none := by
  unfold broadcast
  split
  · simp at hx
  · simp at hy
  · rw [if_neg h]

theorem broadcast_one (f : α → β → γ) (xs : List α) (b : β) : broadcast f xs [b] = some (xs.map (f · b)) := by
  unfold broadcast
  split
  · rfl
  · rename_i h; cases h; rfl
  · rename_i h; exact absurd rfl (h b)

theorem broadcast_length (f : α → β → γ) (a : α) (ys : List β) : broadcast f [a] ys = some (ys.map (f a)) := rfl

/-- The names and bounds as the constructor sets them. -/
theorem construct_some (names : List String) (bounds : List Bound) (m : Manager) (h : construct names bounds = some m) :
    bounds.length = names.length ∧ m = ⟨names, bounds.map Bound.lo, bounds.map Bound.hi⟩ := by
  unfold construct at h
  split_ifs at h with hl
  exact ⟨by omega, (Option.some.inj h).symm⟩

theorem limit_eq (names : List String) (bounds : List Bound) (vs : List ℚ) (h : vs.length = bounds.length) :
    Manager.limit ⟨names, bounds.map Bound.lo, bounds.map Bound.hi⟩ vs = some (ParamManager.limit bounds vs) := by
  unfold Manager.limit
  dsimp only
  rw [broadcast_eq _ _ _ (by simp [h])]
  dsimp only
  rw [broadcast_eq _ _ _ (by simp [h])]
  dsimp only
  rw [broadcast_eq _ _ _ (by simp [h])]
  dsimp only
  rw [broadcast_eq _ _ _ (by simp [h])]
  congr 1
  unfold ParamManager.limit
  clear names
  induction bounds generalizing vs with
  | nil => simp
  | cons b bs ih =>
    match vs, h with
    | v :: vs, h =>
      simp only [List.map_cons, List.zipWith_cons_cons]
      rw [ih vs (by simpa using h)]
      rfl

/-- C119: the constructor accepts names and bounds exactly if there are as many of them; then values with one per name can be
limited and scaled both ways, each by the bounds at its place. -/
theorem C119_constructor (names : List String) (bounds : List Bound) :
    ((construct names bounds).isSome = true ↔ names.length = bounds.length) ∧
      ∀ m, construct names bounds = some m → ∀ vs : List ℚ, vs.length = names.length →
        m.limit vs = some (ParamManager.limit bounds vs) ∧ m.fromUnity vs = some (ParamManager.fromUnity bounds vs) ∧
          m.toUnity vs = some (ParamManager.toUnity bounds vs) := by
  constructor
  · unfold construct
    split_ifs with h
    · simp; omega
    · simp; omega
  · intro m hm vs hv
    obtain ⟨hl, rfl⟩ := construct_some _ _ _ hm
    have h : vs.length = bounds.length := by omega
    refine ⟨limit_eq names bounds vs h, ?_, ?_⟩
    · unfold Manager.fromUnity Manager.scales
      rw [broadcast_eq _ _ _ (by simp)]
      dsimp only
      rw [broadcast_eq _ _ _ (by simp [h])]
      dsimp only
      rw [broadcast_eq _ _ _ (by simp [h])]
      congr 1
      unfold ParamManager.fromUnity
      clear hm hl hv
      induction bounds generalizing vs with
      | nil => simp
      | cons b bs ih =>
        match vs, h with
        | v :: vs, h =>
          simp only [List.map_cons, List.zipWith_cons_cons]
          rw [ih vs (by simpa using h)]
          rfl
    · unfold Manager.toUnity Manager.scales
      rw [broadcast_eq _ _ _ (by simp [h])]
      dsimp only
      rw [broadcast_eq _ _ _ (by simp)]
      dsimp only
      rw [broadcast_eq _ _ _ (by simp [h])]
      congr 1
      unfold ParamManager.toUnity
      clear hm hl hv
      induction bounds generalizing vs with
      | nil => simp
      | cons b bs ih =>
        match vs, h with
        | v :: vs, h =>
          simp only [List.map_cons, List.zipWith_cons_cons]
          rw [ih vs (by simpa using h)]
          rfl

theorem limitAll_some (Nd : ℕ) (m : Manager) (f : List ℚ → List ℚ) (members : List (List ℚ))
    (h : ∀ v ∈ members, limitMember Nd m v = some (f v)) : limitAll Nd m members = some (members.map f) := by
  induction members with
  | nil => rfl
  | cons v vs ih =>
    rw [limitAll, h v (by simp)]
    dsimp only
    rw [ih fun w hw => h w (by simp [hw])]
    rfl

/-- `limit` with another number of bounds, not 1. -/
theorem limitMember_none (Nd : ℕ) (names : List String) (bounds : List Bound) (vs : List ℚ) (hv : vs.length = Nd)
    (h : bounds.length ≠ Nd) (h1 : bounds.length ≠ 1) :
    limitMember Nd ⟨names, bounds.map Bound.lo, bounds.map Bound.hi⟩ vs = none := by
  unfold limitMember Manager.limit
  dsimp only
  by_cases hN : vs.length = 1
  · obtain ⟨v, rfl⟩ := List.length_eq_one_iff.1 hN
    rw [broadcast_length]
    dsimp only
    rw [broadcast_eq _ _ _ (by simp)]
    dsimp only
    rw [broadcast_eq _ _ _ (by simp)]
    dsimp only
    rw [broadcast_eq _ _ _ (by simp)]
    dsimp only
    rw [if_pos]
    simp only [List.length_zipWith, List.length_map]
    omega
  · rw [broadcast_none _ _ _ (by simp; omega) hN (by simpa using h1)]

/-- C119, what holds for new bounds given to `load`: as many as there are parameters are accepted, and every member is
limited by them as by those of a constructor; any other number except 1 is refused as soon as there is a member; an empty list means no new
bounds. -/
theorem C119_load_partial (Nd : ℕ) (m : Manager) (members : List (List ℚ)) (bounds : List Bound)
    (hm : ∀ v ∈ members, v.length = Nd) (hne : bounds ≠ []) :
    (bounds.length = Nd → load Nd m members bounds =
      some (⟨m.names, bounds.map Bound.lo, bounds.map Bound.hi⟩, members.map (ParamManager.limit bounds))) ∧
      (bounds.length ≠ Nd → bounds.length ≠ 1 → members ≠ [] → load Nd m members bounds = none) ∧
      load Nd m members [] = some (m, members) := by
  have he : bounds.isEmpty = false := by simpa using hne
  refine ⟨?_, ?_, rfl⟩
  · intro hb
    unfold load
    rw [he, limitAll_some Nd _ (ParamManager.limit bounds) members]
    · rfl
    · intro v hv
      unfold limitMember Manager.setup
      rw [limit_eq _ _ _ (by rw [hm v hv, hb])]
      dsimp only
      rw [if_neg]
      simp [ParamManager.limit, hm v hv, hb]
  · intro hb h1 hmem
    unfold load
    rw [he]
    match members, hmem with
    | v :: vs, _ =>
      rw [limitAll]
      have := limitMember_none Nd m.names bounds v (hm v (by simp)) hb h1
      unfold Manager.setup
      rw [this]
      rfl

/-- C119 fails: a single pair of bounds is accepted by `load` for any number of parameters; every value of every member is
limited by it, so that all of them lie between these two numbers then, whichever parameter they are for. -/
theorem C119_one_pair (Nd : ℕ) (m : Manager) (members : List (List ℚ)) (hm : ∀ v ∈ members, v.length = Nd) (b : Bound)
    (hb : b.lo ≤ b.hi) :
    ∃ members', load Nd m members [b] = some (⟨m.names, [b.lo], [b.hi]⟩, members') ∧
      members' = members.map (List.map (ParamManager.limit1 b)) ∧
      ∀ v ∈ members', v.length = Nd ∧ ∀ x ∈ v, b.lo ≤ x ∧ x ≤ b.hi := by
  refine ⟨members.map (List.map (ParamManager.limit1 b)), ?_, rfl, ?_⟩
  · unfold load
    rw [limitAll_some Nd _ (List.map (ParamManager.limit1 b)) members]
    · rfl
    · intro v hv
      unfold limitMember Manager.limit Manager.setup
      simp only [List.map_cons, List.map_nil, broadcast_one, List.map_map]
      rw [if_neg (by simp [hm v hv])]
      rfl
  · intro v hv
    obtain ⟨w, hw, rfl⟩ := List.mem_map.1 hv
    refine ⟨by simp [hm w hw], ?_⟩
    intro x hx
    obtain ⟨y, _, rfl⟩ := List.mem_map.1 hx
    exact ⟨le_min (le_max_right _ _) hb, min_le_right _ _⟩

/-- C119 fails: without members any number of bounds is accepted, and no values can be scaled or limited any more if the number
is wrong (and there are more than one parameter and pair). -/
theorem C119_no_members (Nd : ℕ) (m : Manager) (bounds : List Bound) (hN : Nd ≠ 1) (h1 : bounds.length ≠ 1)
    (hne : bounds ≠ []) (hb : bounds.length ≠ Nd) :
    ∃ m', load Nd m [] bounds = some (m', []) ∧
      ∀ vs : List ℚ, vs.length = Nd → m'.limit vs = none ∧ m'.fromUnity vs = none ∧ m'.toUnity vs = none := by
  have he : bounds.isEmpty = false := by simpa using hne
  refine ⟨m.setup bounds, ?_, ?_⟩
  · unfold load
    rw [he]
    rfl
  · intro vs hv
    refine ⟨?_, ?_, ?_⟩
    · unfold Manager.limit Manager.setup
      dsimp only
      rw [broadcast_none _ _ _ (by simp; omega) (by omega) (by simpa using h1)]
    · unfold Manager.fromUnity Manager.scales Manager.setup
      dsimp only
      rw [broadcast_eq _ _ _ (by simp)]
      dsimp only
      rw [broadcast_none _ _ _ (by simp; omega) (by simpa using h1) (by omega)]
    · unfold Manager.toUnity Manager.setup
      dsimp only
      rw [broadcast_none _ _ _ (by simp; omega) (by omega) (by simpa using h1)]

/-- C119 fails: bounds that are exchanged, the upper one below the lower one, are accepted by the constructor; limiting then
turns every value into that upper bound, so that all candidates have the same value. -/
theorem C119_exchanged (names : List String) (bounds : List Bound) (hl : bounds.length = names.length)
    (hx : ∀ b ∈ bounds, b.hi < b.lo) :
    ∃ m, construct names bounds = some m ∧
      ∀ vs : List ℚ, vs.length = names.length → m.limit vs = some (bounds.map Bound.hi) := by
  refine ⟨⟨names, bounds.map Bound.lo, bounds.map Bound.hi⟩, by simp [construct, hl, Manager.setup], ?_⟩
  intro vs hv
  rw [limit_eq _ _ _ (by omega)]
  congr 1
  have h : vs.length = bounds.length := by omega
  unfold ParamManager.limit
  clear hl hv
  induction bounds generalizing vs with
  | nil => simp
  | cons b bs ih =>
    match vs, h with
    | v :: vs, h =>
      simp only [List.zipWith_cons_cons, List.map_cons]
      rw [ih (fun c hc => hx c (by simp [hc])) vs (by simpa using h)]
      congr 1
      unfold ParamManager.limit1
      exact min_eq_right ((hx b (by simp)).le.trans (le_max_right _ _))

/-! ## Examples -/

def exBounds : List Bound := [⟨0, 1⟩, ⟨-2, 5⟩, ⟨10, 20⟩]

def exManager : Manager := ⟨["a", "b", "c"], [0, -2, 10], [1, 5, 20]⟩

example := (C119_constructor ["a", "b", "c"] exBounds).2 exManager (by decide +kernel) [1 / 2, 0, 25] (by decide)

example := (C119_load_partial 3 exManager [[0, 0, 15], [1, 4, 20]] [⟨0, 1⟩, ⟨-1, 3⟩, ⟨12, 18⟩] (by decide +kernel)
  (by decide +kernel)).1 (by decide)

example := (C119_load_partial 3 exManager [[0, 0, 15], [1, 4, 20]] [⟨0, 1⟩, ⟨-1, 3⟩] (by decide +kernel)
  (by decide +kernel)).2.1 (by decide) (by decide) (by decide +kernel)

example := C119_one_pair 3 exManager [[0, 0, 15], [1, 4, 20]] (by decide +kernel) ⟨0, 1⟩ (by decide +kernel)

example : (load 3 exManager [[0, 0, 15], [1, 4, 20]] [⟨0, 1⟩]).map Prod.snd = some [[0, 0, 0], [1, 0, 0]] := by
  decide +kernel

example := C119_no_members 3 exManager [⟨0, 1⟩, ⟨-1, 3⟩] (by decide) (by decide) (by decide +kernel) (by decide)

example := C119_exchanged ["a", "b"] [⟨1, 0⟩, ⟨5, 2⟩] (by decide) (by decide +kernel)

end ParamBounds
end Ade
