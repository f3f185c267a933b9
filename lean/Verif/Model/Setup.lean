import Verif.Model.ParamManager

/-!
# Model: setting up the initial population

`Population.setup` (ade/population.py:740-846). The body of `populate` is a generator that is resumed
by the Twisted reactor, and evaluations finish at any time in between, in any order; so the model is a
transition system with one event for a resumption, one for the end of an evaluation, and one for an
abort from outside.

`DeferredTracker` comes from another package (asynqueue); it is taken at its documentation:
`deferUntilFewer(N)` waits until fewer than `N` tracked evaluations are outstanding, `deferToAll()`
until none is. The designs drawn by `lhs` or `np.random.uniform` are an arbitrary sequence of
matrices in the unit cube. History, reporter and messages are left out.
-/

set_option autoImplicit false

namespace Ade
namespace Setup

open ParamManager

/-- What a setup run depends on: target size, attempts per individual (`maxTries`), the limit of
parallel evaluations, the keyword `blank`, the parameter manager, and the matrices `design n` of the
successive refreshes (row `r`, unit cube). -/
structure Cfg where
  Np : ℕ
  maxTries : ℕ
  maxParallel : ℕ
  blank : Bool
  bounds : List Bound
  names : List String
  constraints : List (Dict → Bool)
  design : ℕ → ℕ → List ℚ

/-- `kIV` (ade/population.py:843): number of the current design and index of its next row. -/
structure Src where
  n : ℕ
  k : ℕ
  deriving DecidableEq

/-- `getNextIV` (ade/population.py:775-781), and `refreshIV` (ade/population.py:768-773): the design
and row to use, and the new position. -/
def nextIV (cfg : Cfg) (s : Src) : Src × Src :=
  let s := if s.k + 1 = cfg.Np then ⟨s.n + 1, 0⟩ else s
  (s, ⟨s.n, s.k + 1⟩)

/-- The parameter values in a row of a design (ade/population.py:773). -/
def rowValues (cfg : Cfg) (s : Src) : List ℚ := fromUnity cfg.bounds (cfg.design s.n s.k)

/-- `getIndividual` (ade/population.py:783-792) with the given number of attempts left: the values,
whether they conform, and the new position. With no attempt at all Python would fail with an unbound
name; `maxTries` is positive. -/
def getIndividual (cfg : Cfg) : ℕ → Src → List ℚ × Bool × Src
  | 0, s => ([], false, s)
  | t + 1, s =>
    let r := nextIV cfg s
    let values := rowValues cfg r.1
    if passesConstraints cfg.names cfg.constraints values then (limit cfg.bounds values, true, r.2)
    else if t = 0 then (limit cfg.bounds values, false, r.2)
    else getIndividual cfg t r.2

/-- An outstanding evaluation: its number, the individual, and whether the tracker `dt` has it. -/
structure Flight where
  id : ℕ
  ind : Individual
  tracked : Bool

/-- Where the generator is suspended (ade/population.py:815-837). -/
inductive Phase where
  /-- At the head of the `while` loop, not suspended. -/
  | loop
  /-- In `dt.deferUntilFewer`. -/
  | waitFewer
  /-- In `yield d` for evaluation `id`. -/
  | waitOne (id : ℕ)
  /-- In `dt.deferToAll`. -/
  | drain
  /-- Done, with `True` or `None`. -/
  | finished (ready : Bool)
  deriving DecidableEq

/-- State of a setup run. `running` is the truth of `self.running is not False`. -/
structure St where
  src : Src
  members : List Individual
  flights : List Flight
  k : ℕ
  running : Bool
  phase : Phase

/-- Start of `setup` (ade/population.py:841-846) on a population that is not shut down. -/
def start : St := ⟨⟨0, 0⟩, [], [], 0, true, .loop⟩

/-- `setup` on a population whose `running` flag is `False` (ade/population.py:839-840). -/
def startStopped (members : List Individual) : St := ⟨⟨0, 0⟩, members, [], 0, false, .finished false⟩

/-- The call of `setup` on a population with the given flag `running` (`none` for the `None` set by `clear`,
ade/population.py:681) and members: those of a population that is not shut down are removed first
(ade/population.py:766-767, 839-841). -/
def begin (running : Option Bool) (members : List Individual) : St :=
  if running = some false then startStopped members else start

/-- Events. -/
inductive Event where
  | resume
  | finish (id : ℕ) (r : Individual.EvalResult)
  | abort

/-- `needMore` (ade/population.py:803-804). -/
def needMore (cfg : Cfg) (s : St) : Bool := s.members.length < cfg.Np

/-- The wait, if any, is over. -/
def ready (cfg : Cfg) (s : St) : Bool :=
  match s.phase with
  | .loop => true
  | .waitFewer => (s.flights.filter (·.tracked)).length < cfg.maxParallel
  | .waitOne id => s.flights.all (fun f => f.id != id)
  | .drain => (s.flights.filter (·.tracked)).isEmpty
  | .finished _ => false

/-- One round of the `while` loop (ade/population.py:818-831), or its end. -/
def round (cfg : Cfg) (s : St) : St :=
  if s.running && needMore cfg s then
    let g := getIndividual cfg cfg.maxTries s.src
    -- a nonconforming individual makes `getIndividual` abort, but is used all the same
    let s := { s with src := g.2.2, running := s.running && g.2.1 }
    let i := Individual.spawn g.1
    if cfg.blank then { s with members := s.members ++ [i.setSSE (some .pinf)], phase := .loop }
    else
      let tracked := s.k + 1 < cfg.Np
      { s with
        k := s.k + 1
        flights := s.flights ++ [⟨s.k, i, tracked⟩]
        phase := if tracked then .waitFewer else .waitOne s.k }
  else { s with phase := .drain }

/-- `done` (ade/population.py:834-837) with `initialize` (ade/population.py:730-738). -/
def done (s : St) : St :=
  if s.running then { s with phase := .finished true } else { s with phase := .finished false }

/-- `evaluated` (ade/population.py:806-813), after `Individual.evaluate` has set the score. -/
def evaluated (cfg : Cfg) (s : St) (i : Individual) : St :=
  if !i.toBool then { s with running := false }
  else if !i.toFloat.isInf && needMore cfg s then { s with members := s.members ++ [i] }
  else s

/-- One event; `none` if it cannot happen. -/
def step (cfg : Cfg) (s : St) : Event → Option St
  | .resume =>
    if !ready cfg s then none
    else if s.phase = .drain then some (done s)
    else some (round cfg s)
  | .finish id r =>
    match s.flights.find? (fun f => f.id == id) with
    | none => none
    | some f =>
      some (evaluated cfg { s with flights := s.flights.filter (fun f => f.id != id) }
        (f.ind.finishEval 0 r).1)
  | .abort =>
    match s.phase with
    | .finished _ => none
    | _ => some { s with running := false }

/-- A sequence of events. -/
def run (cfg : Cfg) (s : St) : List Event → Option St
  | [] => some s
  | e :: es =>
    match step cfg s e with
    | none => none
    | some s' => run cfg s' es

end Setup
end Ade
