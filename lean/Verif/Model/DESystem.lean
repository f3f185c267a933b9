import Mathlib.Logic.Function.Basic
import Mathlib.Data.List.Basic

/-!
# Concurrent challenges

Transition system for the concurrently running calls of `DifferentialEvolution.challenge`
(ade/de.py:464-563) with the index locks of `Population.lock`/`release` (ade/population.py:1126-1169).

* One `Act` is one stretch of code between two `yield`s of an unfired Deferred (Twisted runs such a
  stretch without interruption).  Any interleaving of enabled acts is allowed, a superset of what
  Twisted's reactor and synchronous evaluators can produce.
* A `DeferredLock` is represented by one list of challenge numbers: `[]` is unlocked, the head is the
  request the lock was last handed to, the tail is its FIFO `waiting` list.  A request has fired when
  it is not in the tail.
* The challenges are numbered in the order they are issued.  `req n` is the `n`-th challenge's indices
  and what its mutation, crossover, limiting, constraint check and evaluation will yield as a
  function of the four individuals read.  Theorems quantify over every `req`, so over every way of
  choosing indices (also depending on the current state) and every outcome of random draws.

Simplifications: the population is a function from index to member (validity of indices is
`Verif/Props/Sample.lean`); `Population.abort` is not a separate step; report callbacks do not change
members (complaints are modelled in `Verif/Model/Reporter.lean`); the history is modelled elsewhere,
here only the waiting for `history.add`.
-/

set_option autoImplicit false

namespace Ade
namespace DESystem

/-- What becomes of the challenger made from (target, base, i0, i1): it fails the constraints
(ade/de.py:557-559), its evaluation is a fatal error, i.e. it is false (ade/de.py:554-556), or it is
evaluated to a usable individual. -/
inductive Outcome (I : Type) where
  | failedConstraints
  | fatal
  | evaluated (i : I)

/-- One challenge (ade/de.py:464, 510-515): its indices and what the computation between the lock
being granted and the evaluation's end yields (ade/de.py:531-541). -/
structure Req (I : Type) where
  kt : ℕ
  kb : ℕ
  k0 : ℕ
  k1 : ℕ
  trial : I → I → I → I → Outcome I

/-- The four indices in the order given to `lock` (ade/de.py:515). -/
def Req.idx {I : Type} (r : Req I) : List ℕ := [r.kt, r.kb, r.k0, r.k1]

/-- Where a challenge is in its code. -/
inductive Phase (I : Type) where
  /-- not issued yet -/
  | idle
  /-- at `yield self.p.lock(...)`, ade/de.py:515 -/
  | waiting
  /-- at `yield iChallenger.evaluate(...)`, ade/de.py:539-541, having read the target -/
  | evaluating (target : I) (out : Outcome I)
  /-- at `yield self.p.history.add(...)`, ade/de.py:551-552 -/
  | recording
  /-- returned -/
  | done

/-- State of the run. -/
structure Sys (I : Type) where
  pop : ℕ → I
  queue : ℕ → List ℕ
  phase : ℕ → Phase I
  issued : ℕ
  running : Bool

/-- Fixed parameters: strict comparison of individuals, the `xSSE` attribute, and the challenges. -/
structure Params (I : Type) where
  lt : I → I → Bool
  xSSE : Bool
  req : ℕ → Req I

/-- Possible acts. -/
inductive Act where
  /-- the loop of `_run` calls `challenge` (ade/de.py:590-600) -/
  | issue
  /-- challenge `j` has all its locks and continues -/
  | grant (j : ℕ)
  /-- the evaluation of challenge `j` ends -/
  | finish (j : ℕ)
  /-- the history addition of challenge `j` ends -/
  | recorded (j : ℕ)
  /-- `shutdown` is called (ade/de.py:423-442) -/
  | shutdown
  deriving DecidableEq

variable {I : Type}

/-- `dLocks[k].acquire()` for challenge `j` (ade/population.py:1149). -/
def acquire (q : ℕ → List ℕ) (j k : ℕ) : ℕ → List ℕ := Function.update q k (q k ++ [j])

/-- `tryRelease(dLocks[k])` (ade/population.py:1160-1162): nothing when unlocked, else the lock goes to
the next waiting request. -/
def release (q : ℕ → List ℕ) (k : ℕ) : ℕ → List ℕ := Function.update q k (q k).tail

/-- `release()` without arguments (ade/population.py:1168-1169). -/
def releaseAll (q : ℕ → List ℕ) : ℕ → List ℕ := fun k => (q k).tail

/-- The Deferred of `lock` has fired: none of its acquire requests is still waiting
(ade/population.py:1149-1150). -/
def granted (P : Params I) (s : Sys I) (j : ℕ) : Bool :=
  (P.req j).idx.all fun k => !(s.queue k).tail.contains j

/-- One act; `none` if it is not possible in the state. -/
def step (P : Params I) (s : Sys I) : Act → Option (Sys I)
  | .issue =>
    -- ade/de.py:510-515; `sample` chose k0, k1 of `req`
    let j := s.issued
    if s.running then
      some { s with
        issued := j + 1
        phase := Function.update s.phase j .waiting
        queue := (P.req j).idx.foldl (fun q k => acquire q j k) s.queue }
    else
      some { s with issued := j + 1, phase := Function.update s.phase j .done }
  | .grant j =>
    match s.phase j with
    | .waiting =>
      if granted P s j then
        let r := P.req j
        if s.running then
          -- ade/de.py:516-517, 522-530
          let q := release (release (release s.queue r.kb) r.k0) r.k1
          match r.trial (s.pop r.kt) (s.pop r.kb) (s.pop r.k0) (s.pop r.k1) with
          | .failedConstraints =>
            -- ade/de.py:557-563
            some { s with queue := release q r.kt, phase := Function.update s.phase j .done }
          | out =>
            some { s with
              queue := q
              phase := Function.update s.phase j (.evaluating (s.pop r.kt) out) }
        else
          -- ade/de.py:518-521
          some { s with queue := releaseAll s.queue, phase := Function.update s.phase j .done }
      else none
    | _ => none
  | .finish j =>
    match s.phase j with
    | .evaluating target out =>
      let r := P.req j
      match out, s.running with
      | .evaluated c, true =>
        if P.lt c target then
          -- ade/de.py:543-546, 553, 563
          some { s with
            pop := Function.update s.pop r.kt c
            queue := release s.queue r.kt
            phase := Function.update s.phase j .done }
        else if !P.xSSE then
          -- ade/de.py:547-552
          some { s with phase := Function.update s.phase j .recording }
        else
          -- ade/de.py:553, 563
          some { s with queue := release s.queue r.kt, phase := Function.update s.phase j .done }
      | _, _ =>
        -- ade/de.py:554-556, 563
        some { s with
          running := false
          queue := release s.queue r.kt
          phase := Function.update s.phase j .done }
    | _ => none
  | .recorded j =>
    match s.phase j with
    | .recording =>
      -- ade/de.py:553, 563
      some { s with
        queue := release s.queue (P.req j).kt
        phase := Function.update s.phase j .done }
    | _ => none
  | .shutdown => some { s with running := false }

/-- Start of a run on a population. -/
def init (pop : ℕ → I) : Sys I :=
  { pop := pop, queue := fun _ => [], phase := fun _ => .idle, issued := 0, running := true }

/-- Executing a list of acts; `none` if one of them is not possible. -/
def run (P : Params I) : Sys I → List Act → Option (Sys I)
  | s, [] => some s
  | s, a :: as =>
    match step P s a with
    | none => none
    | some s' => run P s' as

/-- A state that some execution from a fresh start on `pop₀` reaches. -/
def Reachable (P : Params I) (pop₀ : ℕ → I) (s : Sys I) : Prop :=
  ∃ acts, run P (init pop₀) acts = some s

end DESystem
end Ade
