import Verif.Model.Session

/-!
# Constraints that raise an exception

A constraint is a function of the user's. `passesConstraints` (ade/population.py:215-234) does not catch its exceptions, nor
does `challenge` (ade/de.py:536), so that the Deferred of the challenge fails with the lock of the target still acquired: the
only statement that releases it is the last one (ade/de.py:563).  Here such a failure is one more act of a run
(`Verif/Model/RunSystem.lean`).

Simplification: which challenges fail is not computed from the values; any challenge that has its locks may.  The same
failure arises if `limit` or the arithmetic of individuals raises.
-/

set_option autoImplicit false

namespace Ade
namespace RaisingConstraint

open DESystem

variable {I : Type}

/-- Acts of a run, or: challenge `j` has all its locks and continues, and a constraint raises. -/
inductive XAct where
  | act (a : RunSystem.RAct)
  | raises (j : ℕ)
  deriving DecidableEq

/-- A challenge with its locks releases those of the base and the two others (ade/de.py:516-530); then the exception leaves it
(ade/de.py:536). -/
def raised (c : RunSystem.Cfg I) (s : RunSystem.RS I) (j : ℕ) : Option (RunSystem.RS I) :=
  match s.sys.phase j with
  | .waiting =>
    if granted (RunSystem.params c s.reqs) s.sys j && s.sys.running then
      let r := (RunSystem.params c s.reqs).req j
      some (RunSystem.settle { s with
        sys := { s.sys with
          queue := release (release (release s.sys.queue r.kb) r.k0) r.k1
          phase := Function.update s.sys.phase j .done }
        failed := true })
    else none
  | _ => none

/-- One act. -/
def step (c : RunSystem.Cfg I) (s : RunSystem.RS I) : XAct → Option (RunSystem.RS I)
  | .act a => RunSystem.step c s a
  | .raises j => raised c s j

/-- Executing a list of acts; `none` if one of them is not possible. -/
def run (c : RunSystem.Cfg I) : RunSystem.RS I → List XAct → Option (RunSystem.RS I)
  | s, [] => some s
  | s, a :: as =>
    match step c s a with
    | none => none
    | some s' => run c s' as

end RaisingConstraint
end Ade
