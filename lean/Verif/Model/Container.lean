import Verif.Model.Individual
import Verif.Model.PopHistory

/-!
# A population as a container

Model of the sequence-like methods of `ade/population.py`, class `Population`, on the members (`iList`) together with
the history (see `Verif/Model/PopHistory.lean`).
-/

set_option autoImplicit false

namespace Ade
namespace Container
open History PopHistory

/-- The position that index `k` of a Python list of length `n` stands for; `none` is an `IndexError`. -/
def pos (n : ℕ) (k : ℤ) : Option ℕ :=
  if 0 ≤ k then (if k < n then some k.toNat else none)
  else if 0 ≤ k + n then some (k + n).toNat else none

/-- Outcome of a call: a value or an exception. -/
inductive Res (α : Type) where
  | ok (a : α)
  | indexError
  | typeError
  deriving DecidableEq

/-- A Python object that is an `Individual` or not. -/
inductive Obj where
  | individual (i : Ind)
  | other

/-- `self.iList[k]`. -/
def item {α : Type} (l : List α) (k : ℤ) : Res α :=
  match (pos l.length k).bind (l[·]?) with
  | some a => .ok a
  | none => .indexError

/-- `__getitem__` (ade/population.py:520-524). -/
def getItem (s : PH) (k : ℤ) : Res Ind := item s.members k

/-- `__setitem__` (ade/population.py:526-547), statement by statement. -/
def setItem (f4 : PyFloat → PyFloat) (s : PH) (k : ℤ) (o : Obj) (ch : Finset ℕ → Option ℕ) : PH × Res Unit :=
  match o with
  | .other => (s, .typeError)
  | .individual i =>
    if k < s.members.length then
      match item s.members k with
      | .ok prev =>
        let h := (add f4 (notInPop s.hist prev) i false ch).1
        match pos s.members.length k with
        | some n => (⟨s.members.set n i, h⟩, .ok ())
        | none => (⟨s.members, h⟩, .indexError)
      | _ => (s, .indexError)
    else
      -- the history has the individual already when the item assignment raises
      (⟨s.members, (add f4 s.hist i false ch).1⟩, .indexError)

/-- An individual as an object: its identity and its contents. -/
structure Ref where
  id : ℕ
  ind : Individual

/-- `__contains__` (ade/population.py:565-569): `in` on a list compares by identity, then by `==`. -/
def contains (l : List Ref) (x : Ref) : Bool := l.any fun e => e.id == x.id || e.ind.eq x.ind

/-- What `individuals` returns: `None`, an individual, or a list. -/
inductive Several (α : Type) where
  | none
  | one (a : α)
  | list (l : List α)
  | indexError
  deriving DecidableEq

/-- The loop of `individuals` (ade/population.py:1120-1123), with the individuals found so far. -/
def collect {α : Type} (l : List α) : List ℤ → List α → Several α
  | [], found =>
    match found with
    | [a] => .one a
    | _ => .list found
  | k :: ks, found =>
    if (l.length : ℤ) ≤ k then .none
    else
      match item l k with
      | .ok a => collect l ks (found ++ [a])
      | _ => .indexError

/-- `individuals` (ade/population.py:1115-1124). -/
def individuals {α : Type} (l : List α) (indices : List ℤ) : Several α := collect l indices []

end Container
end Ade
