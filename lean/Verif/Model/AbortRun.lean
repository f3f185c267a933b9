import Verif.Model.DESystem

/-!
# Aborting the population during a run

`Verif/Model/DESystem.lean` models the challenges of a run with `DifferentialEvolution.shutdown` as a step.
This file adds `Population.abort` (ade/population.py:712-728) as a step of its own. It is called

* by the Enter key before `shutdown` (ade/population.py:425 is registered before ade/de.py:421, and
  `Abort.run` calls in that order), and
* by `Reporter.abort` when a callback raises an exception (ade/report.py:77-82, 169), then without `shutdown`.

After it the run itself goes on until `shutdown`: `DifferentialEvolution.running` is another flag than
`Population.running`.

Simplifications: as in `DESystem`; "invalid index" in `lock` cannot occur, as the population keeps its size. The
steps that `release` causes synchronously ("may run a bunch of stuff that was waiting for locks") are separate
steps here that are possible from then on, in any order.
-/

set_option autoImplicit false

namespace Ade
namespace AbortRun

open DESystem

variable {I : Type}

/-- State: that of the run, the population's `running` flag (`false` after `abort`), and which challenges began
their evaluation after the abort. -/
structure ASys (I : Type) where
  sys : Sys I
  popRunning : Bool
  late : ℕ → Bool

/-- Acts: those of the run, or `Population.abort`. -/
inductive AAct where
  | act (a : Act)
  | abort
  deriving DecidableEq

/-- The parameters as they are after the abort: `evalFunc` passes `None` to the evaluation function
(ade/population.py:661-669), so what comes of challenge `n`, unless it fails the constraints, is what evaluation
of `None` gives, `lateTrial n`. -/
def lateParams (P : Params I) (lateTrial : ℕ → Outcome I) : Params I :=
  { P with
    req := fun n => { P.req n with
      trial := fun t b i0 i1 =>
        match (P.req n).trial t b i0 i1 with
        | .failedConstraints => .failedConstraints
        | _ => lateTrial n } }

/-- `challenge` up to `yield self.p.lock(...)` after the abort: `lock` returns a Deferred that has fired, without
requesting any lock (ade/population.py:1138-1139). -/
def lateIssue (s : Sys I) : Sys I :=
  { s with
    issued := s.issued + 1
    phase := Function.update s.phase s.issued (if s.running then .waiting else .done) }

/-- One act; `none` if it is not possible in the state. -/
def astep (P : Params I) (lateTrial : ℕ → Outcome I) (a : ASys I) : AAct → Option (ASys I)
  | .abort =>
    -- ade/population.py:720-727
    some { a with popRunning := false, sys := { a.sys with queue := releaseAll a.sys.queue } }
  | .act .issue =>
    if a.popRunning then (step P a.sys .issue).map fun s => { a with sys := s }
    else some { a with sys := lateIssue a.sys }
  | .act (.grant j) =>
    if a.popRunning then (step P a.sys (.grant j)).map fun s => { a with sys := s }
    else
      (step (lateParams P lateTrial) a.sys (.grant j)).map fun s =>
        { a with sys := s, late := Function.update a.late j true }
  | .act x => (step P a.sys x).map fun s => { a with sys := s }

/-- Start of a run on a population. -/
def ainit (pop : ℕ → I) : ASys I := { sys := init pop, popRunning := true, late := fun _ => false }

/-- Executing a list of acts; `none` if one of them is not possible. -/
def arun (P : Params I) (lateTrial : ℕ → Outcome I) : ASys I → List AAct → Option (ASys I)
  | a, [] => some a
  | a, x :: xs =>
    match astep P lateTrial a x with
    | none => none
    | some a' => arun P lateTrial a' xs

end AbortRun
end Ade
