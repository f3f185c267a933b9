import Verif.Model.Container

/-!
# The items of an individual

Model of the item access of `ade/individual.py`, class `Individual`: by position and by the name of a parameter.

External contract: `isinstance(k, int)` is false for numpy's integers (Python 3), and a numpy array takes both kinds of integers as
index.  Simplification: indices that numpy takes for several items (slices, lists) are left out.
-/

set_option autoImplicit false

namespace Ade
namespace Items

/-- What is written between the brackets: an `int`, an integer of numpy, a text, something else that numpy does not take
as an index, like a float. -/
inductive Index where
  | int (k : ℤ)
  | npInt (k : ℤ)
  | name (s : String)
  | other
  deriving DecidableEq

/-- Outcome of a call. -/
inductive Res (α : Type) where
  | ok (a : α)
  | indexError
  | valueError
  deriving DecidableEq

/-- `self.values[k]` for an integer. -/
def at' {α : Type} (l : List α) (k : ℤ) : Res α :=
  match (Container.pos l.length k).bind (l[·]?) with
  | some a => .ok a
  | none => .indexError

/-- `names.index(s)`; `none` is a `ValueError`. -/
def indexOf (names : List String) (s : String) : Option ℕ :=
  if s ∈ names then some (names.idxOf s) else none

/-- `__getitem__` (ade/individual.py:153-160), with the names of the parameters (ade/population.py:80). -/
def getItem {α : Type} (names : List String) (vals : List α) : Index → Res α
  | .int k => at' vals k
  | .npInt _ => .valueError
  | .name s =>
    match indexOf names s with
    | none => .valueError
    | some k => at' vals k
  | .other => .valueError

/-- `self.values[k] = value` for an integer: the values afterwards and the outcome. -/
def setAt {α : Type} (vals : List α) (k : ℤ) (v : α) : List α × Res Unit :=
  match Container.pos vals.length k with
  | some n => (vals.set n v, .ok ())
  | none => (vals, .indexError)

/-- `__setitem__` (ade/individual.py:162-166); `i['name'] = v` is an `IndexError` of numpy. -/
def setItem {α : Type} (vals : List α) (i : Index) (v : α) : List α × Res Unit :=
  match i with
  | .int k => setAt vals k v
  | .npInt k => setAt vals k v
  | .name _ => (vals, .indexError)
  | .other => (vals, .indexError)

/-- `__iter__` (ade/individual.py:168-173). -/
def iter {α : Type} (vals : List α) : List α := vals

end Items
end Ade
