import Verif.Model.Reporter

/-!
# Registering report callbacks at any time

`Reporter` has a fixed number of callbacks.  Here callbacks are registered (`Population.addCallback`,
`Reporter.addCallback`) at any time, also by a callback or while one is running.  The `for` loop over the list of
callbacks (ade/report.py:162) looks at the length of the list whenever it asks for the next callback, so that
`Reporter.step` with the current number of callbacks is what happens.  A callback with its extra arguments and
keywords (the triples of ade/report.py:99) is a number.
-/

set_option autoImplicit false

namespace Ade
namespace Registering

/-- A reporter with the list of its callbacks (ade/report.py:71, 99). -/
structure St where
  cbs : List ℕ
  rep : Reporter.St

/-- A new reporter (ade/report.py:62-75). -/
def new (store : ℕ → Individual) : St := ⟨[], Reporter.new store⟩

/-- What is given to `addCallback`. -/
inductive Arg where
  | callable (f : ℕ)
  | other
  deriving DecidableEq

/-- `addCallback` (ade/report.py:84-99, ade/population.py:848-855): the new state and whether `ValueError` was
raised. -/
def addCallback (s : St) : Arg → St × Bool
  | .callable f => ({ s with cbs := s.cbs ++ [f] }, false)
  | .other => (s, true)

/-- Events: something is registered, or one of the events of `Reporter`. -/
inductive Event where
  | add (a : Arg)
  | ev (e : Reporter.Event)
  deriving DecidableEq

/-- One event; `none` if it cannot happen. -/
def step (s : St) : Event → Option St
  | .add a => some (addCallback s a).1
  | .ev e => (Reporter.step s.cbs.length s.rep e).map fun r => { s with rep := r }

/-- A sequence of events. -/
def run (s : St) : List Event → Option St
  | [] => some s
  | e :: es =>
    match step s e with
    | none => none
    | some s' => run s' es

end Registering
end Ade
