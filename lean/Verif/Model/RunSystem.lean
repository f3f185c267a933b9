import Verif.Model.DESystem

/-!
# A run with its generations and its concurrent challenges

`Verif/Model/RunLoop.lean` has the loop of `DifferentialEvolution._run` (ade/de.py:565-638) with an arbitrary
environment, `Verif/Model/DESystem.lean` has the challenges without the loop.  Here both are put together: the loop
issues the challenges of a generation, choosing their indices from the population as it is at that moment, waits for
all of them, and goes on to the next generation.

* As in `DESystem`, one act is one stretch of code between two `yield`s, and any interleaving of possible acts is
  allowed.  (The loop over the targets has no `yield` in it, so in the program only synchronous consequences of a
  call of `challenge` come between two issues.  The model allows more.)
* Exceptions of `history.add` (see `Verif/Props/History.lean`, C39) are acts of their own: an addition that a
  challenge waits for fails (`fails`), or one that nobody waits for does (`blocks`).  Either leaves the lock of the
  history acquired.

Simplifications: those of `DESystem`; the decision to stop after a generation, made by `RunLoop`, is part of the act
`collect`; the user's function is taken to return, having called `shutdown` or not; `goalSSE` is not set (C34).
-/

set_option autoImplicit false

namespace Ade
namespace RunSystem

open DESystem

/-- What is chosen for a challenge when it is issued: the index of the base (ade/de.py:591-593), those of the two
others (ade/de.py:513), and the computation that will be made with the individuals (ade/de.py:531-541). -/
structure Pick (I : Type) where
  kb : ℕ
  k0 : ℕ
  k1 : ℕ
  trial : I → I → I → I → Outcome I

/-- The settings of a run.  `pick n kt pop` is what is chosen for the `n`-th challenge, which has the target `kt`,
when `pop` is the population. -/
structure Cfg (I : Type) where
  Np : ℕ
  maxiter : ℕ
  lt : I → I → Bool
  xSSE : Bool
  pick : ℕ → ℕ → (ℕ → I) → Pick I

/-- Where the run is. -/
inductive Stage where
  /-- `__call__` waits for the report of the best initial individual (ade/de.py:682-683) -/
  | opening
  /-- generation `g` waits for reports (ade/de.py:586) -/
  | reports (g : ℕ)
  /-- generation `g` is about to challenge `kt` (ade/de.py:590) -/
  | issuing (g kt : ℕ)
  /-- generation `g` waits for its challenges (ade/de.py:604-606) -/
  | waiting (g : ℕ)
  /-- the final report has been filed and is being waited for (ade/de.py:631-634) -/
  | closing
  /-- the Deferred of the run has fired, after the final report or without one (ade/de.py:636-638) -/
  | ended (final : Bool)
  deriving DecidableEq

/-- State: the challenges, what was chosen for each of them, the stage, the number of challenges issued before this
generation, whether the Deferred of a challenge of this generation has failed, and whether the lock of the history
has been left acquired. -/
structure RS (I : Type) where
  sys : Sys I
  reqs : List (Req I)
  stage : Stage
  first : ℕ
  failed : Bool
  blocked : Bool

/-- Acts. -/
inductive RAct where
  /-- `waitForReports` fires (ade/population.py:1030-1038) -/
  | reported
  /-- the loop calls `challenge` for the next target (ade/de.py:590-600) -/
  | issue
  /-- challenge `j` has all its locks and continues -/
  | grant (j : ℕ)
  /-- the evaluation of challenge `j` ends -/
  | finish (j : ℕ)
  /-- the history addition of challenge `j` ends -/
  | recorded (j : ℕ)
  /-- the history addition of challenge `j` raises an exception -/
  | fails (j : ℕ)
  /-- a history addition that nobody waits for raises an exception (ade/population.py:543) -/
  | blocks
  /-- all challenges of the generation have returned; does the loop stop (ade/de.py:624-628), and does the user's
  function call `shutdown` (ade/de.py:629)? -/
  | collect (stop callbackStops : Bool)
  /-- `shutdown` is called (ade/de.py:423-442) -/
  | shutdown
  deriving DecidableEq

variable {I : Type}

/-- The challenges chosen so far as parameters of `DESystem`; what is not chosen yet does not matter. -/
def params (c : Cfg I) (reqs : List (Req I)) : Params I :=
  ⟨c.lt, c.xSSE, fun n => reqs.getD n ⟨0, 1, 2, 3, fun _ _ _ _ => .failedConstraints⟩⟩

/-- `shutdown` on the state of the challenges. -/
def stop (s : Sys I) : Sys I := { s with running := false }

/-- What the loop does as soon as `running` is false or a challenge has failed: the issuing loop is left
(ade/de.py:600, 610); the `DeferredList` of the challenges fires, by the failure (`fireOnOneErrback`) or by the
`errback` in `shutdown` (ade/de.py:441-442), and the loop is left, with `shutdown` called (ade/de.py:608-610). -/
def settle (s : RS I) : RS I :=
  match s.stage with
  | .issuing _ _ => if s.sys.running then s else { s with stage := .ended false }
  | .waiting _ =>
    if s.sys.running && !s.failed then s else { s with stage := .ended false, sys := stop s.sys }
  | _ => s

/-- The next target of generation `g`, or the end of the loop over targets (ade/de.py:590, 601). -/
def nextTarget (c : Cfg I) (s : RS I) (g kt : ℕ) : RS I :=
  { s with stage := if kt = c.Np then .waiting g else .issuing g kt }

/-- The next generation (ade/de.py:582), or the end of the loop (ade/de.py:630-633). -/
def enter (c : Cfg I) (s : RS I) (g : ℕ) : RS I :=
  { s with stage := if g = c.maxiter then (if s.sys.running then .closing else .ended false) else .reports g }

/-- Has the challenge returned? -/
def isDone : Phase I → Bool
  | .done => true
  | _ => false

/-- An act of a challenge that has been issued. -/
def challengeStep (c : Cfg I) (s : RS I) (a : Act) : Option (RS I) :=
  match DESystem.step (params c s.reqs) s.sys a with
  | none => none
  | some sys => some (settle { s with sys := sys })

/-- One act; `none` if it is not possible in the state. -/
def step (c : Cfg I) (s : RS I) : RAct → Option (RS I)
  | .reported =>
    -- `waitForReports` also waits for the lock of the history (ade/population.py:1037)
    if s.blocked then none
    else
      match s.stage with
      | .opening => some (enter c s 0)
      | .reports g =>
        if s.sys.running then some (nextTarget c { s with first := s.sys.issued } g 0)
        else some { s with stage := .ended false }
      | .closing => some { s with sys := stop s.sys, stage := .ended true }
      | _ => none
  | .issue =>
    match s.stage with
    | .issuing g kt =>
      let p := c.pick s.sys.issued kt s.sys.pop
      let reqs := s.reqs ++ [⟨kt, p.kb, p.k0, p.k1, p.trial⟩]
      match DESystem.step (params c reqs) s.sys .issue with
      | none => none
      | some sys => some (settle (nextTarget c { s with sys := sys, reqs := reqs } g (kt + 1)))
    | _ => none
  | .grant j => challengeStep c s (.grant j)
  | .finish j => challengeStep c s (.finish j)
  | .recorded j => if s.blocked then none else challengeStep c s (.recorded j)
  | .fails j =>
    if s.blocked then none
    else
      match s.sys.phase j with
      | .recording =>
        some (settle { s with
          sys := { s.sys with phase := Function.update s.sys.phase j .done }
          failed := true
          blocked := true })
      | _ => none
  | .blocks => some { s with blocked := true }
  | .collect stops callbackStops =>
    match s.stage with
    | .waiting g =>
      if (List.range (s.sys.issued - s.first)).all fun i => isDone (s.sys.phase (s.first + i)) then
        if stops then some { s with stage := .closing }
        else some (enter c (if callbackStops then { s with sys := stop s.sys } else s) (g + 1))
      else none
    | _ => none
  | .shutdown => some (settle { s with sys := stop s.sys })

/-- Start of a run on a population (ade/de.py:676-683). -/
def start (pop : ℕ → I) : RS I := ⟨init pop, [], .opening, 0, false, false⟩

/-- Executing a list of acts; `none` if one of them is not possible. -/
def run (c : Cfg I) : RS I → List RAct → Option (RS I)
  | s, [] => some s
  | s, a :: as =>
    match step c s a with
    | none => none
    | some s' => run c s' as

end RunSystem
end Ade
