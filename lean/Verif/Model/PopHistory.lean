import Verif.Model.History

/-!
# A population and its history

Model of how `ade/population.py` drives the history: the members (`iList`) together with the `History`.
The requests to the history are queued on its lock in the order made, and each takes effect atomically
(see `Verif/Model/History.lean`), so they are applied in that order.
-/

set_option autoImplicit false

namespace Ade
namespace PopHistory
open History

/-- The members of a population and its history. -/
structure PH where
  members : List Ind
  hist : Hist

/-- Ways in which the population uses its history. -/
inductive Op where
  /-- `addIndividual` in `setup` (ade/population.py:794-801) -/
  | append (i : Ind) (choose : Finset Nat → Option Nat)
  /-- `__setitem__` (ade/population.py:526-547) for an index of an existing member -/
  | assign (k : Nat) (i : Ind) (choose : Finset Nat → Option Nat)
  /-- a losing challenger is recorded (ade/de.py:549-552) -/
  | record (i : Ind) (choose : Finset Nat → Option Nat)
  /-- `clear` (ade/population.py:672-686) -/
  | clear

/-- Effect of an operation.  An assignment beyond the members is not modelled (`IndexError` after the
history was changed). -/
def step (f4 : PyFloat → PyFloat) (s : PH) : Op → PH
  | .append i ch => ⟨s.members ++ [i], (add f4 s.hist i false ch).1⟩
  | .assign k i ch =>
    match s.members[k]? with
    | none => s
    | some prev => ⟨s.members.set k i, (add f4 (notInPop s.hist prev) i false ch).1⟩
  | .record i ch => ⟨s.members, (add f4 s.hist i true ch).1⟩
  | .clear => ⟨[], History.clear s.hist⟩

/-- Effect of a sequence of operations. -/
def run (f4 : PyFloat → PyFloat) (s : PH) (ops : List Op) : PH := ops.foldl (step f4) s

end PopHistory
end Ade
