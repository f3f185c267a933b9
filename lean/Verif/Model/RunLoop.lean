import Verif.Model.FManager

/-!
# Model: the generation loop

`DifferentialEvolution._run` and `__call__` (ade/de.py:565-683). Everything that happens while the
loop waits (reports, challenges, the user pressing a key) is an arbitrary environment, given per
generation; the loop itself is deterministic. Progress messages are omitted.
-/

set_option autoImplicit false

namespace Ade
namespace RunLoop

/-- The attributes read by the loop (ade/de.py:392-403). `goal` is `goalSSE` (`none` for `None`). -/
structure Cfg where
  maxiter : ℕ
  Np : ℕ
  randomBase : Bool
  dwellByGrave : ℕ
  bitterEnd : Bool
  goal : Option ℚ

/-- What the loop sees in one generation: `running` after waiting for reports (ade/de.py:587), the
best index during issuing (ade/de.py:591-593), the answers of `Population.sample` (ade/de.py:592),
`running` after each issued challenge (ade/de.py:600), whether the wait for the challenges ended
with a result (ade/de.py:606-608) and `running` then, the answer to the status-quo inquiry (ade/de.py:615), and
`running` after the user callback (ade/de.py:629). -/
structure Env where
  running0 : Bool
  kBest : ℕ → ℕ
  sample : ℕ → Option ℕ
  running1 : ℕ → Bool
  result : Bool
  running2 : Bool
  keep : Bool
  running3 : Bool

/-- Observable effects, in order. -/
inductive Event where
  | generation (kg : ℕ)
  | challenge (kg kt kb : ℕ)
  | up
  | down
  | callback (kg : ℕ)
  | report
  | shutdown
  deriving DecidableEq

/-- How the loop ends. -/
inductive Outcome where
  /-- The `else` of the `for` (ade/de.py:630). -/
  | maximum
  /-- `if not self.running: break` (ade/de.py:587, 610). -/
  | aborted (kg : ℕ)
  /-- "Challengers failing too much" (ade/de.py:626-628). -/
  | gaveUp (kg : ℕ)
  /-- `self.p.best < self.goalSSE` compares a method with a number (ade/de.py:611). -/
  | typeError (kg : ℕ)
  deriving DecidableEq

/-- The base index for target `kt` (ade/de.py:591-593). -/
def base (cfg : Cfg) (e : Env) (kt : ℕ) : Option ℕ :=
  if cfg.randomBase || kt == e.kBest kt then e.sample kt else some (e.kBest kt)

/-- The issuing loop over the remaining targets (ade/de.py:590-600): the challenges issued, and
whether the loop ran to its end (the `else` at ade/de.py:601). -/
def issue (cfg : Cfg) (e : Env) (kg : ℕ) : List ℕ → List Event × Bool
  | [] => ([], true)
  | kt :: kts =>
    match base cfg e kt with
    | none => ([.shutdown], false)
    | some kb =>
      if !e.running1 kt then ([.challenge kg kt kb], false)
      else
        let r := issue cfg e kg kts
        (.challenge kg kt kb :: r.1, r.2)

/-- `bool(self.goalSSE)` (ade/de.py:611): `None` and zero are false. -/
def goalSet (cfg : Cfg) : Bool :=
  match cfg.goal with
  | none => false
  | some g => g ≠ 0

variable {K : Type} [Field K] [LinearOrder K]

/-- One generation up to the second check of `running` (ade/de.py:582-610): events, and whether the
loop goes on. -/
def evolve (cfg : Cfg) (e : Env) (kg : ℕ) : List Event × Bool :=
  if !e.running0 then ([.generation kg], false)
  else
    let r := issue cfg e kg (List.range cfg.Np)
    if !r.2 then (.generation kg :: r.1, false)
    else if !e.result then (.generation kg :: r.1 ++ [.shutdown], false)
    else (.generation kg :: r.1, e.running2)

/-- The loop from generation `kg` with `n` generations left (ade/de.py:582-630); `F` is the range
manager and `dwell` the `dwellCount`. -/
def loop (cfg : Cfg) (c : FManager.Consts K) (env : ℕ → Env) :
    ℕ → ℕ → FManager.FM K → ℕ → List Event × Outcome
  | 0, _, _, _ => ([], .maximum)
  | n + 1, kg, F, dwell =>
    let r := evolve cfg (env kg) kg
    if !r.2 then (r.1, .aborted kg)
    else if goalSet cfg then (r.1, .typeError kg)
    else if (env kg).keep then
      let s := loop cfg c env n (kg + 1) (FManager.up c F) 0
      (r.1 ++ .up :: .callback kg :: s.1, s.2)
    else
      let F' := FManager.down c F
      if !cfg.bitterEnd && F'.limited then
        if dwell + 1 > cfg.dwellByGrave then (r.1 ++ [.down], .gaveUp kg)
        else
          let s := loop cfg c env n (kg + 1) F' (dwell + 1)
          (r.1 ++ .down :: .callback kg :: s.1, s.2)
      else
        let s := loop cfg c env n (kg + 1) F' dwell
        (r.1 ++ .down :: .callback kg :: s.1, s.2)

/-- `_run` (ade/de.py:565-638): after the loop, if still running, the best individual is reported and
the object shut down; an exception leaves at once. The loop can only reach its maximum without
running any more if the last user callback shut the object down. -/
def run (cfg : Cfg) (c : FManager.Consts K) (env : ℕ → Env) (F : FManager.FVal K) (adaptive : Bool) :
    List Event × Outcome :=
  let s := loop cfg c env cfg.maxiter 0 (FManager.init c F adaptive) 0
  match s.2 with
  | .maximum =>
    if cfg.maxiter = 0 ∨ (env (cfg.maxiter - 1)).running3 then (s.1 ++ [.report, .shutdown], s.2)
    else s
  | .gaveUp _ => (s.1 ++ [.report, .shutdown], s.2)
  | .aborted _ | .typeError _ => s

/-- `__call__` (ade/de.py:640-683): a population whose setup was aborted is returned as it is
(`none`); otherwise the best individual is reported first. -/
def call (cfg : Cfg) (c : FManager.Consts K) (env : ℕ → Env) (F : FManager.FVal K) (adaptive : Bool)
    (popRunning : Bool) : Option (List Event × Outcome) :=
  if !popRunning then none
  else
    let s := run cfg c env F adaptive
    some (.report :: s.1, s.2)

end RunLoop
end Ade
