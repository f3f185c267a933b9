import Verif.Model.ExecRunner
import Mathlib.Data.Rat.Defs

/-!
# What an external program writes, piece by piece; shutting down a pool of programs

Model of `ExecProtocol.outReceived` (ade/examples/goldstein-price.py:104-116) for any pieces of text, and of
`Runner.shutdown` (:135-144) and `MultiRunner.shutdown` (:170-179).

Simplifications: `data` is text, as it is with Python 2 (with Python 3 it is bytes, and `outReceived` raises a TypeError);
`shutdown` of the protocol has no effect (`C98_shutdown_without_effect`) and is left out here.
-/

set_option autoImplicit false

namespace Ade
namespace ExecText
open ExecRunner

/-- `data.replace('\r', '').strip('\n')` (ade/examples/goldstein-price.py:112). -/
def clean (data : List Char) : List Char :=
  (((data.filter (· != '\r')).dropWhile (· == '\n')).reverse.dropWhile (· == '\n')).reverse

/-- State of an `ExecProtocol` (ade/examples/goldstein-price.py:64-68): the lock with its waiting list, `response`, the
commands written to the program so far, and the commands finished so far with the text each got (latest first). -/
structure TSt where
  locked : Bool
  waiting : List (ℕ × Stage)
  response : Option (List Char)
  written : List ℕ
  results : List (ℕ × Option (List Char))
  deriving DecidableEq

/-- After `__init__` (ade/examples/goldstein-price.py:64-68). -/
def start : TSt := ⟨true, [], none, [], []⟩

/-- `lock.release()` with the continuations of `cmd` (ade/examples/goldstein-price.py:92-102), see
`ExecRunner.release`. -/
def release (s : TSt) : List (ℕ × Stage) → TSt
  | [] => { s with locked := false, waiting := [] }
  | (n, .toWrite) :: w => { s with locked := true, waiting := w ++ [(n, .toRead)], written := s.written ++ [n] }
  | (n, .toRead) :: w => let s' := release s w; { s' with results := (n, s'.response) :: s'.results }

/-- What can happen: `cmd` is called (ade/examples/goldstein-price.py:92-102), the process is connected (:83-89), or a piece
of its output arrives (:104-116). -/
inductive TEv where
  | call (n : ℕ)
  | connect
  | out (data : List Char)
  deriving DecidableEq

/-- The effect of an event. -/
def step (s : TSt) : TEv → TSt
  | .call n =>
    if s.locked then { s with waiting := s.waiting ++ [(n, .toWrite)] }
    else { s with locked := true, waiting := s.waiting ++ [(n, .toRead)], written := s.written ++ [n] }
  | .connect => if s.locked then release s s.waiting else s
  | .out data =>
    if clean data = [] ∨ s.locked = false then s
    else let s := { s with response := some (clean data) }; release s s.waiting

/-- The state after some events. -/
def run (s : TSt) (evs : List TEv) : TSt := evs.foldl step s

/-- What `Runner.__call__` gives (ade/examples/goldstein-price.py:102, 151): the number, or `None` after `oops` has printed
the traceback of an exception (`float` of a text that is no number, or of `None`). -/
def outcome (float : List Char → Option ℚ) (response : Option (List Char)) : Option ℚ := response.bind float

/-! ## Pools -/

/-- A `MultiRunner` (ade/examples/goldstein-price.py:158-168): its size, the runners in the queue, the requests waiting for
one (a command, or `none` for one of `shutdown`) and, of each runner, the commands given to it, whether its `triggerID` is still there (:132-133), and how often the
protocol's `shutdown` and `removeSystemEventTrigger` were called. -/
structure Pool where
  size : ℕ
  queue : List ℕ
  waiting : List (Option ℕ)
  given : List (ℕ × ℕ)
  trigger : ℕ → Bool
  stopped : ℕ → ℕ

/-- `MultiRunner(execPath, N)`. -/
def Pool.start (N : ℕ) : Pool := ⟨N, List.range N, [], [], fun _ => true, fun _ => 0⟩

/-- `Runner.shutdown` (ade/examples/goldstein-price.py:135-144). -/
def Pool.stop (p : Pool) (r : ℕ) : Pool :=
  if p.trigger r then
    { p with trigger := Function.update p.trigger r false, stopped := Function.update p.stopped r (p.stopped r + 1) }
  else p

/-- Events: the pool is called with a command (ade/examples/goldstein-price.py:181-191), it is shut down (:170-179), or the
reactor calls the `shutdown` of a runner (:132-133). -/
inductive PEv where
  | call (n : ℕ)
  | shutdown
  | stop (r : ℕ)
  deriving DecidableEq

/-- The loop of `shutdown` (ade/examples/goldstein-price.py:176-178): a runner taken from the queue is not put back; a request
without a runner waits. -/
def Pool.stopAll : ℕ → Pool → Pool
  | 0, p => p
  | n + 1, p =>
    match p.queue with
    | [] => Pool.stopAll n { p with waiting := p.waiting ++ [none] }
    | r :: q => Pool.stopAll n (Pool.stop { p with queue := q } r)

/-- The effect of an event: a call takes the first runner and puts it back at once; without a runner it waits. -/
def Pool.step (p : Pool) : PEv → Pool
  | .call n =>
    match p.queue with
    | [] => { p with waiting := p.waiting ++ [some n] }
    | r :: q => { p with queue := q ++ [r], given := p.given ++ [(r, n)] }
  | .shutdown => Pool.stopAll p.size p
  | .stop r => p.stop r

/-- The state after some events. -/
def Pool.run (p : Pool) (evs : List PEv) : Pool := evs.foldl Pool.step p

end ExecText
end Ade
