import Mathlib.Data.Nat.Notation
import Mathlib.Logic.Function.Basic

/-!
# Running an external program

Model of `ExecProtocol`, `Runner` and `MultiRunner` in `ade/examples/goldstein-price.py`: commands are written to the
standard input of a program, whose answers come back line by line.

A command is named by a number; the answer to it is named by the same number.  Simplifications: each call of
`outReceived` brings exactly one line that is not blank; the program answers its inputs in their order and does not end;
the conversion of an answer to a number succeeds.  Twisted's `DeferredLock` and `DeferredQueue` are modelled as lists of
waiting continuations in the order of their requests; a waiting continuation runs as soon as it is granted the lock,
before `release` returns.
-/

set_option autoImplicit false

namespace Ade
namespace ExecRunner

/-- Where a waiting command is: before it has written its arguments (ade/examples/goldstein-price.py:98), or waiting for
the answer (:100). -/
inductive Stage where
  | toWrite
  | toRead
  deriving DecidableEq

/-- State of an `ExecProtocol` (ade/examples/goldstein-price.py:64-68): the lock with its waiting list, `response`,
`running`, the inputs of the program not answered yet, and the commands finished so far with the answer each got
(latest first). -/
structure St where
  locked : Bool
  waiting : List (ℕ × Stage)
  response : Option ℕ
  running : Option Bool
  inputs : List ℕ
  results : List (ℕ × Option ℕ)
  deriving DecidableEq

/-- After `__init__` (ade/examples/goldstein-price.py:64-68). -/
def start : St := ⟨true, [], none, none, [], []⟩

/-- `lock.release()` with a given waiting list, including what the continuation of `cmd` does that is granted the lock
(ade/examples/goldstein-price.py:99-102): either it writes its arguments and requests the lock again, or it releases the
lock and then returns the response. -/
def release (s : St) : List (ℕ × Stage) → St
  | [] => { s with locked := false, waiting := [] }
  | (n, .toWrite) :: w => { s with locked := true, waiting := w ++ [(n, .toRead)], inputs := s.inputs ++ [n] }
  | (n, .toRead) :: w => let s' := release s w; { s' with results := (n, s'.response) :: s'.results }

/-- What can happen: `cmd` is called (ade/examples/goldstein-price.py:92-102), the process is connected (:83-89), the
program answers its next input (:104-116), or `shutdown` is called (:70-81). -/
inductive Ev where
  | call (n : ℕ)
  | connect
  | answer
  | shutdown
  deriving DecidableEq

/-- The effect of an event. -/
def step (s : St) : Ev → St
  | .call n =>
    if s.locked then { s with waiting := s.waiting ++ [(n, .toWrite)] }
    else { s with locked := true, waiting := s.waiting ++ [(n, .toRead)], inputs := s.inputs ++ [n] }
  | .connect => if s.locked then release s s.waiting else s
  | .answer =>
    match s.inputs with
    | [] => s
    | n :: inputs =>
      let s := { s with inputs := inputs }
      if s.locked then let s := { s with response := some n }; release s s.waiting else s
  | .shutdown =>
    if s.running = some true then
      let s := { s with running := some false }
      if s.locked then let s := { s with response := none }; release s s.waiting else s
    else s

/-- The state after some events. -/
def run (s : St) (evs : List Ev) : St := evs.foldl step s

/-- A pool of runners: the queue of the `MultiRunner` and the runners' protocols
(ade/examples/goldstein-price.py:158-168). -/
structure Pool where
  queue : List ℕ
  runner : ℕ → St

/-- `MultiRunner(execPath, N)`. -/
def Pool.start (N : ℕ) : Pool := ⟨List.range N, fun _ => ExecRunner.start⟩

/-- Events of a pool: it is called (ade/examples/goldstein-price.py:181-191), or something happens to one runner. -/
inductive PoolEv where
  | call (n : ℕ)
  | connect (r : ℕ)
  | answer (r : ℕ)

/-- The effect of an event: the first runner of the queue gets the command and is put back at the end of the queue at
once (ade/examples/goldstein-price.py:187-191). -/
def Pool.step (p : Pool) : PoolEv → Pool
  | .call n =>
    match p.queue with
    | [] => p
    | r :: q => ⟨q ++ [r], Function.update p.runner r (ExecRunner.step (p.runner r) (.call n))⟩
  | .connect r => { p with runner := Function.update p.runner r (ExecRunner.step (p.runner r) .connect) }
  | .answer r => { p with runner := Function.update p.runner r (ExecRunner.step (p.runner r) .answer) }

/-- The state after some events. -/
def Pool.run (p : Pool) (evs : List PoolEv) : Pool := evs.foldl Pool.step p

end ExecRunner
end Ade
