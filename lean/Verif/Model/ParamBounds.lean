import Verif.Model.ParamManager

/-!
# Numbers of bounds

Model of the constructor, `setup`, `fromUnity`, `toUnity` and `limit` of `ParameterManager` (ade/population.py:78-96,
172-192, 236-251) with arrays of any lengths, which numpy broadcasts, of `Individual.update` (ade/individual.py:252-265) and of
the keyword `bounds` of `Population.load` (ade/population.py:467-471).  In `Verif/Model/ParamManager.lean` the lengths are equal.
-/

set_option autoImplicit false

namespace Ade
namespace ParamBounds

/-- A binary numpy operation on two one-dimensional arrays: an array of length 1 is repeated as necessary; other arrays of
different lengths are a `ValueError` (`none`). -/
def broadcast {α β γ : Type} (f : α → β → γ) : List α → List β → Option (List γ)
  | [a], ys => some (ys.map (f a))
  | xs, [b] => some (xs.map (f · b))
  | xs, ys => if xs.length = ys.length then some (List.zipWith f xs ys) else none

/-- The names and the arrays `mins` and `maxs` (ade/population.py:82, 93-94); `scales` is computed from them
(ade/population.py:95). -/
structure Manager where
  names : List String
  mins : List ℚ
  maxs : List ℚ
  deriving DecidableEq

/-- `setup` (ade/population.py:89-96). -/
def Manager.setup (m : Manager) (bounds : List Bound) : Manager :=
  { m with mins := bounds.map Bound.lo, maxs := bounds.map Bound.hi }

/-- `ParameterManager(names, bounds)` (ade/population.py:78-87); `none` is the `ValueError`. -/
def construct (names : List String) (bounds : List Bound) : Option Manager :=
  if bounds.length ≠ names.length then none else some (Manager.setup ⟨names, [], []⟩ bounds)

/-- `self.scales` (ade/population.py:95). -/
def Manager.scales (m : Manager) : Option (List ℚ) := broadcast (· - ·) m.maxs m.mins

/-- `fromUnity` (ade/population.py:181-182). -/
def Manager.fromUnity (m : Manager) (values : List ℚ) : Option (List ℚ) :=
  match m.scales with
  | none => none
  | some scales =>
    match broadcast (· * ·) scales values with
    | none => none
    | some scaled => broadcast (· + ·) m.mins scaled

/-- `toUnity` (ade/population.py:192); `none` within the list is a division by zero. -/
def Manager.toUnity (m : Manager) (values : List ℚ) : Option (List (Option ℚ)) :=
  match broadcast (· - ·) values m.mins with
  | none => none
  | some diffs =>
    match m.scales with
    | none => none
    | some scales => broadcast (fun d s => if s = 0 then none else some (d / s)) diffs scales

/-- `limit` (ade/population.py:249-251). -/
def Manager.limit (m : Manager) (values : List ℚ) : Option (List ℚ) :=
  match broadcast (fun v l => if v < l then 2 * l - v else v) values m.mins with
  | none => none
  | some values =>
    match broadcast (fun v h => if v > h then 2 * h - v else v) values m.maxs with
    | none => none
    | some values =>
      match broadcast max values m.mins with
      | none => none
      | some values => broadcast min values m.maxs

/-- `Population.limit` (ade/population.py:699-700): `Individual.update` refuses another number of values than `Nd`
(ade/individual.py:260-262). -/
def limitMember (Nd : ℕ) (m : Manager) (values : List ℚ) : Option (List ℚ) :=
  match m.limit values with
  | none => none
  | some values => if values.length ≠ Nd then none else some values

/-- The loop over the members in `load` (ade/population.py:470-471). -/
def limitAll (Nd : ℕ) (m : Manager) : List (List ℚ) → Option (List (List ℚ))
  | [] => some []
  | v :: vs =>
    match limitMember Nd m v with
    | none => none
    | some v' =>
      match limitAll Nd m vs with
      | none => none
      | some vs' => some (v' :: vs')

/-- The effect of the keyword `bounds` of `load` (ade/population.py:467-471) on the manager and the values of the members;
`none` is an exception. An empty list is ignored. -/
def load (Nd : ℕ) (m : Manager) (members : List (List ℚ)) (bounds : List Bound) : Option (Manager × List (List ℚ)) :=
  if bounds.isEmpty then some (m, members)
  else
    match limitAll Nd (m.setup bounds) members with
    | none => none
    | some members' => some (m.setup bounds, members')

end ParamBounds
end Ade
