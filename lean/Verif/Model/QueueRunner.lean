import Mathlib.Data.Nat.Notation

/-!
# The runners of the examples that use a process queue

Model of `Runner.shutdown` and `Runner.evaluate` of `ade/examples/thermistor.py` (lines 308-343) and
`ade/examples/voc.py` (lines 232-266).

External contract: the Deferred of `ProcessQueue.shutdown` fires some time after the call, and a `ProcessQueue` counts as
true.  Simplifications: what the queue does with its tasks is left out; of the messages only the last one of `shutdown` is
modelled; the thermistor example's third argument `xSSE` is passed on unchanged and left out.
-/

set_option autoImplicit false

namespace Ade
namespace QueueRunner

/-- The two examples. -/
inductive Kind where
  | thermistor
  | voc
  deriving DecidableEq

/-- State: whether `self.q` is there (it is `None` later), how many calls of `shutdown` wait for the queue
(ade/examples/thermistor.py:329), how often the queue's `shutdown` has been called, how often "Goodbye" was said, and the
tasks given to the queue, in order. -/
structure St (V : Type) where
  q : Bool
  waiting : ℕ
  queueShutdowns : ℕ
  goodbyes : ℕ
  tasks : List V
  deriving DecidableEq

/-- After `__init__` (ade/examples/thermistor.py:308-317, ade/examples/voc.py:232-241). -/
def start (V : Type) : St V := ⟨true, 0, 0, 0, []⟩

/-- `shutdown` up to its `yield` (ade/examples/thermistor.py:327-329, ade/examples/voc.py:251-253). -/
def shutdown {V : Type} (s : St V) : St V :=
  if s.q then { s with waiting := s.waiting + 1, queueShutdowns := s.queueShutdowns + 1 } else s

/-- What happens: `shutdown` is called, the queue has finished one of its shutdowns, or `evaluate` is called, with values or
with `None`. -/
inductive Ev (V : Type) where
  | shutdown
  | finished
  | evaluate (values : Option V)
  deriving DecidableEq

/-- What `evaluate` returns: `None`, a Deferred that fires with `None` (at once, or when `shutdown` is done), or the Deferred
of a task. -/
inductive Ret (V : Type) where
  | nothing
  | none
  | task (values : V)
  deriving DecidableEq

/-- One event.  `finished` is possible only if a shutdown waits (ade/examples/thermistor.py:330-332,
ade/examples/voc.py:254-256). `evaluate`: ade/examples/thermistor.py:334-343, ade/examples/voc.py:258-266. -/
def step {V : Type} (k : Kind) (s : St V) : Ev V → Option (St V)
  | .shutdown => some (shutdown s)
  | .finished => if s.waiting = 0 then none else
      some { s with waiting := s.waiting - 1, q := false, goodbyes := s.goodbyes + 1 }
  | .evaluate none => match k with
    | .thermistor => some s
    | .voc => some (shutdown s)
  | .evaluate (some v) => if s.q then some { s with tasks := s.tasks ++ [v] } else some s

/-- What `evaluate` returns (same lines). -/
def returned {V : Type} (s : St V) : Option V → Ret V
  | none => .none
  | some v => if s.q then .task v else .nothing

/-- A number of events. -/
def run {V : Type} (k : Kind) : St V → List (Ev V) → Option (St V)
  | s, [] => some s
  | s, e :: es =>
    match step k s e with
    | none => none
    | some s' => run k s' es

end QueueRunner
end Ade
