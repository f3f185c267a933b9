import Verif.Model.Reporter

/-!
# Waiting for reports

Model of `Population.waitForReports` (ade/population.py:1030-1038) with `Reporter.waitForCallbacks`
(ade/report.py:194-199), and of the reports that a run files at its beginning and end (ade/de.py:633-634,
682-683).

Simplifications: `deferToAll` of the `DeferredTracker` (of the `asynqueue` package) is taken to fire when
the callback run put into it has ended, with or without an exception; that `waitForReports` waits for the
history as well is left out here (`Verif/Model/HistoryLock.lean` has the history's requests).
-/

set_option autoImplicit false

namespace Ade
namespace Waiting
open Reporter

/-- A callback run is in progress: the Deferred of `runUntilFree` (ade/report.py:192) has not fired. -/
def inProgress (s : St) : Bool :=
  match s.phase with
  | .idle | .dead => false
  | .calling _ _ | .complaining _ _ => true

/-- Whether the Deferred of `waitForReports` has fired (ade/population.py:1035-1038).  `started` tells that the
`running` attribute is not `None` (setup has ended); `s.running` that it is not `False`. -/
def fires (started : Bool) (s : St) : Bool :=
  if !(started && s.running) then true else !inProgress s

/-- `self.p.report()` with the best member `b` (ade/de.py:633, 682; ade/population.py:1021-1028). -/
def reportBest (n : ℕ) (s : St) (b : ℕ) : St := (report n s b none true true).1

end Waiting
end Ade
