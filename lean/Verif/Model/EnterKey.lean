import Mathlib.Logic.Function.Basic
import Verif.Model.Abort

/-!
# Model: what the Enter key stops

A program that makes and loads populations, makes objects for differential evolution and runs them, together with the
keyboard of `Verif/Model/Abort.lean`. Objects are numbered in the order in which they are made. Of a population there is
the flag `running` (ade/population.py:382-384) and whether it was loaded, of an object for differential evolution its
population and its flag `running` (ade/de.py:406, 419).

Left out: everything else about them (see `Verif/Model/DESystem.lean`, `RunSystem.lean`, `AbortRun.lean`, `Setup.lean`);
the shutdown of the reactor, before which `shutdown` of the keyboard and of the objects is called as well
(ade/abort.py:60-61, ade/de.py:417-418).
-/

set_option autoImplicit false

namespace Ade
namespace EnterKey

/-- A population: whether it was loaded; its flag `running` (`none` before and during a setup, `some false` when aborted;
ade/population.py:382-384). -/
structure PopObj where
  loaded : Bool
  running : Option Bool
  deriving DecidableEq

/-- An object for differential evolution: its population, its flag `running` (ade/de.py:406, 419). -/
structure DEObj where
  pop : ℕ
  running : Bool
  deriving DecidableEq

/-- What can be observed: an evaluation, with parameter values or with `None`; a setup, begun or refused; a call of an
object for differential evolution, with challenges to follow or not. -/
inductive Obs where
  | evaluated (p : ℕ) (values : Bool)
  | setup (p : ℕ) (begun : Bool)
  | called (d : ℕ) (challenges : Bool)
  deriving DecidableEq

/-- The program: its keyboard, its populations and objects, how many there are, what was observed. -/
structure World where
  kb : Abort.St
  pops : ℕ → PopObj
  nPops : ℕ
  des : ℕ → DEObj
  nDEs : ℕ
  out : List Obs

/-- A program that has not done anything yet. -/
def start : World := ⟨Abort.start, fun _ => ⟨false, none⟩, 0, fun _ => ⟨0, false⟩, 0, []⟩

/-- `Population.abort` of population `p` as a registered function (ade/population.py:425). -/
def abortOf (p : ℕ) : ℕ := 2 * p

/-- `DifferentialEvolution.shutdown` of object `d` as a registered function (ade/de.py:421). -/
def shutdownOf (d : ℕ) : ℕ := 2 * d + 1

/-- `Population.abort` (ade/population.py:712-728). -/
def abortPop (w : World) (p : ℕ) : World :=
  { w with pops := Function.update w.pops p { w.pops p with running := some false } }

/-- `DifferentialEvolution.shutdown` (ade/de.py:423-442). -/
def shutdownDE (w : World) (d : ℕ) : World :=
  { w with des := Function.update w.des d { w.des d with running := false } }

/-- Calling a registered function. -/
def apply (w : World) (f : ℕ) : World := if f % 2 = 0 then abortPop w (f / 2) else shutdownDE w (f / 2)

/-- An event at the keyboard (`Verif/Model/Abort.lean`) with the calls of registered functions it leads to. The functions
of this package do not raise exceptions. -/
def keyboard (w : World) (e : Abort.Event) : World :=
  let kb := Abort.step (fun _ => false) w.kb e
  let fs := kb.called.drop w.kb.called.length ++ kb.calledLater.drop w.kb.calledLater.length
  fs.foldl apply { w with kb := kb }

/-- What the program or its user does. -/
inductive Event where
  | newPop
  | loadPop (saved : Option Bool)
  | setup (p : ℕ)
  | setupDone (p : ℕ)
  | clear (p : ℕ)
  | evaluate (p : ℕ)
  | abortPop (p : ℕ)
  | newDE (p : ℕ)
  | call (d : ℕ)
  | shutdownDE (d : ℕ)
  | press
  | abortNow
  | turn
  | keyboardShutdown
  | restart
  | ignore
  deriving DecidableEq

/-- One event. -/
def step (w : World) : Event → World
  -- `Population.__init__` (ade/population.py:400-425)
  | .newPop =>
    keyboard { w with pops := Function.update w.pops w.nPops ⟨false, none⟩, nPops := w.nPops + 1 }
      (.register (abortOf w.nPops) true)
  -- `Population.load`, `__setstate__` (ade/population.py:427-474, 495-505): nothing is registered
  | .loadPop saved =>
    { w with
      pops := Function.update w.pops w.nPops ⟨true, if saved = some false then some true else saved⟩
      nPops := w.nPops + 1 }
  -- `Population.setup` (ade/population.py:839-841)
  | .setup p =>
    if (w.pops p).running = some false then { w with out := w.out ++ [.setup p false] }
    else
      { w with
        pops := Function.update w.pops p { w.pops p with running := none }
        out := w.out ++ [.setup p true] }
  -- `done` (ade/population.py:834-837, 730-738)
  | .setupDone p =>
    if (w.pops p).running = some false then w
    else { w with pops := Function.update w.pops p { w.pops p with running := some true } }
  -- `Population.clear` (ade/population.py:672-687)
  | .clear p => { w with pops := Function.update w.pops p { w.pops p with running := none } }
  -- `Population.evalFunc` (ade/population.py:662-670)
  | .evaluate p => { w with out := w.out ++ [.evaluated p ((w.pops p).running != some false)] }
  -- `Reporter.abort` after a failing callback, a failed evaluation during setup (ade/report.py:77-82, 169,
  -- ade/population.py:790-791, 808-809)
  | .abortPop p => abortPop w p
  -- `DifferentialEvolution.__init__` (ade/de.py:404-421)
  | .newDE p =>
    keyboard { w with des := Function.update w.des w.nDEs ⟨p, true⟩, nDEs := w.nDEs + 1 }
      (.register (shutdownOf w.nDEs) true)
  -- `DifferentialEvolution.__call__`, `_run` (ade/de.py:674-676, 587)
  | .call d => { w with out := w.out ++ [.called d ((w.pops (w.des d).pop).running != some false && (w.des d).running)] }
  -- `DifferentialEvolution.shutdown` at the end of a run (ade/de.py:596, 609, 635)
  | .shutdownDE d => shutdownDE w d
  | .press => keyboard w .press
  | .abortNow => keyboard w .abortNow
  | .turn => keyboard w .turn
  | .keyboardShutdown => keyboard w .shutdown
  | .restart => keyboard w .restart
  | .ignore => keyboard w .ignore

/-- A sequence of events. -/
def run (w : World) (es : List Event) : World := es.foldl step w

end EnterKey
end Ade
