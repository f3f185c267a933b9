import Verif.Model.ParamManager

/-!
# Model: saving and loading a population

`ade/population.py`, `Population.load`, `__getstate__`, `__setstate__`, `clear` and `limit`, together
with the pickling of `ParameterManager` and `Individual` (ade/individual.py:78-94).

Simplifications: pickling itself returns equal values; the history is an opaque value `H` (its own
saving is C44); the evaluation function, the complaint handler and constraints are opaque values;
new bounds come with one pair per parameter.
-/

set_option autoImplicit false

namespace Ade
namespace SaveLoad

/-- A member with the duration `dt` of its last evaluation (ade/individual.py:68-76). -/
structure Member where
  ind : Individual
  dt : Option ℚ
  deriving DecidableEq

/-- `ParameterManager` (ade/population.py:78-96). -/
structure PM (C : Type) where
  names : List String
  sortedNameIndices : List ℕ
  bounds : List Bound
  constraints : List C

/-- `Population` (ade/population.py:388-425, 672-686). `running` is `None`, `True` or `False`; of each
index lock we record whether it is held, of the reporter the remembered best. -/
structure Pop (F C H : Type) where
  func : Option F
  complaint : Option F
  debug : Bool
  running : Option Bool
  Nd : ℕ
  Np : ℕ
  popsize : ℕ
  targetFraction : ℚ
  statusQuoScore : ℚ
  iList : List Member
  pm : PM C
  history : H
  counter : ℕ
  replacementScore : Option ℚ
  held : List Bool
  ranking : Option (List ℕ)
  reportedBest : Option Member

/-- What is pickled (ade/population.py:482-489; ade/population.py:103-106; ade/individual.py:83). The
name `kr` listed there is no attribute of the class. -/
structure Saved (C H : Type) where
  debug : Bool
  running : Option Bool
  Nd : ℕ
  Np : ℕ
  popsize : ℕ
  targetFraction : ℚ
  statusQuoScore : ℚ
  iList : List Member
  pm : PM C
  history : H

section
variable {F C H : Type}

/-- `__getstate__` (ade/population.py:476-493). -/
def getstate (p : Pop F C H) : Saved C H :=
  ⟨p.debug, p.running, p.Nd, p.Np, p.popsize, p.targetFraction, p.statusQuoScore, p.iList, p.pm,
    p.history⟩

/-- `__setstate__` (ade/population.py:495-505) after its call of `clear` (ade/population.py:672-686),
followed by `p.func = ...` and the new `Reporter` of `load` (ade/population.py:466, 472). -/
def setstate (s : Saved C H) (func complaint : Option F) : Pop F C H where
  func := func
  complaint := complaint
  debug := s.debug
  running := if s.running = some false then some true else s.running
  Nd := s.Nd
  Np := s.Np
  popsize := s.popsize
  targetFraction := s.targetFraction
  statusQuoScore := s.statusQuoScore
  iList := s.iList
  pm := s.pm
  history := s.history
  counter := 0
  replacementScore := none
  held := s.iList.map fun _ => false
  ranking := none
  reportedBest := none

/-- `Population.limit` (ade/population.py:688-700), which changes the individual in place. -/
def limitMember (bs : List Bound) (m : Member) : Member :=
  { m with ind := { m.ind with values := ParamManager.limit bs m.ind.values } }

/-- `load` (ade/population.py:427-473), with the keywords `func`, `complaintCallback` and `bounds`; an
empty list of bounds is ignored. -/
def load (s : Saved C H) (func complaint : Option F) (bounds : List Bound) : Pop F C H :=
  let p := setstate s func complaint
  if bounds.isEmpty then p
  else
    { p with
      pm := { p.pm with bounds := bounds }
      iList := p.iList.map (limitMember bounds) }

end
end SaveLoad
end Ade
