import Verif.Model.Individual
import Mathlib.Algebra.Order.Floor.Defs
import Mathlib.Data.Rat.Floor

/-!
# Model: reporting

`ade/report.py`, class `Reporter`, and `Population.report` (ade/population.py:996-1028).

Individuals are mutable objects, so they are numbers here, with a store that holds their contents;
the only change that happens to an individual while it is reported on is `blacklist`. Callbacks may
take any time: `runCallbacks` starts a generator that is resumed by the events `returned` and
`handled`. The tracker of pending runs, messages and line breaks are left out, and so is the default
complaint handler (the interactive debugger): `complaintCallback` is set.
-/

set_option autoImplicit false

namespace Ade
namespace Reporter

/-- `np.round` of a non-negative number: to the nearest integer, halves to the even one
(ade/report.py:346-347). -/
def roundHalfEven (x : ℚ) : ℕ :=
  let f := ⌊x⌋.toNat
  let d := x - f
  if d < 1 / 2 then f
  else if d > 1 / 2 then f + 1
  else if f % 2 = 0 then f else f + 1

/-- `isEquivSSE` on scores (ade/report.py:101-115): a worse score of zero, or a quotient that is not a
number near one, gives `False`. -/
def equivSSE : PyFloat → PyFloat → Bool
  | .fin a, .fin b => if b = 0 then false else decide (|a / b - 1| < 2 / 100)
  | _, _ => false

/-- `bogus` (ade/report.py:311-321). -/
def bogus (i : Individual) : Bool := i.SSE.isNaN || i.SSE.isInf

/-- `msgRatio` (ade/report.py:256-350): the ratio (`none` for `None`) and the progress character. -/
def msgRatio (iNum iDenom : Individual) (bogusChar : Char) : Option ℕ × Char :=
  if !iNum.toBool || !iDenom.toBool then (none, '?')
  else if bogus iNum then
    if bogus iDenom then (some 0, '%') else (some 1000, bogusChar)
  else if bogus iDenom then (some 0, '#')
  else if iNum.lt iDenom then (none, 'X')
  else if equivSSE iDenom.SSE iNum.SSE then (some 0, '0')
  else
    let ratio := match iNum.SSE, iDenom.SSE with
      | .fin a, .fin b => if b = 0 then 1000 else roundHalfEven (a / b)
      | _, _ => 0 -- not reached, neither score is bogus
    (some ratio, if ratio < 10 then Nat.digitChar ratio else '9')

/-- One call of a registered callback: its position, the individual, and the values and score
passed (ade/report.py:164-165). -/
structure Call where
  k : ℕ
  i : ℕ
  values : List ℚ
  score : PyFloat
  deriving DecidableEq

/-- State of the callback run (ade/report.py:151-187). -/
inductive Phase where
  /-- No run (`cbrInProgress` false). -/
  | idle
  /-- Waiting for callback `k` on individual `i`. -/
  | calling (i k : ℕ)
  /-- Waiting for the complaint handler, after callback `k` complained about `i`. -/
  | complaining (i k : ℕ)
  /-- An exception ended the generator; `cbrInProgress` stays true (ade/report.py:154, 187). -/
  | dead
  deriving DecidableEq

/-- State of a reporter: store of individuals, `iBest`, `iLastReported`, the bag `cbrScheduled`, the
local variable `iPrev` and the argument `iPrevBest` of the run, `p.running is not False`, the calls
made, the progress characters, and the ratios passed to `Population.replacement`. -/
structure St where
  store : ℕ → Individual
  iBest : Option ℕ
  iLast : Option ℕ
  bag : Option ℕ
  iPrev : Option ℕ
  prevBest : Option ℕ
  phase : Phase
  running : Bool
  log : List Call
  chars : List Char
  repl : List ℕ

/-- `__init__` (ade/report.py:62-75). -/
def new (store : ℕ → Individual) : St :=
  ⟨store, none, none, none, none, none, .idle, true, [], [], []⟩

/-- Truth of `x and i == x` for an individual and a remembered one (ade/report.py:159, 230). -/
def same (store : ℕ → Individual) (i : ℕ) : Option ℕ → Bool
  | none => false
  | some x => (store x).toBool && (store i).eq (store x)

/-- The `while` loop from its head (ade/report.py:157-161), with `n` callbacks registered, up to
the next suspension. The bag holds at most one individual, so it is empty after the `pop`. -/
def whileLoop (n : ℕ) (s : St) : St :=
  match s.bag with
  | none => { s with phase := .idle }
  | some i =>
    if !s.running then { s with phase := .idle }
    else
      let s := { s with bag := none }
      if same s.store i s.iPrev then { s with phase := .idle }
      else
        let s := { s with iPrev := some i }
        if n = 0 then { s with phase := .idle }
        else
          { s with
            log := s.log ++ [⟨0, i, (s.store i).values, (s.store i).SSE⟩]
            phase := .calling i 0 }

/-- The `for` loop, at callback `k` (ade/report.py:162-165). -/
def forLoop (n : ℕ) (s : St) (i k : ℕ) : St :=
  if k < n then
    if !s.running then whileLoop n s
    else
      { s with
        log := s.log ++ [⟨k, i, (s.store i).values, (s.store i).SSE⟩]
        phase := .calling i k }
  else whileLoop n s

/-- `runCallbacks` (ade/report.py:117-192). -/
def runCallbacks (n : ℕ) (s : St) (i : ℕ) (iPrevBest : Option ℕ) : St :=
  let s := { s with bag := some i }
  if s.phase = .idle then whileLoop n { s with iPrev := none, prevBest := iPrevBest }
  else s

/-- `self.iBest is None or i < self.iBest` (ade/report.py:244, 460). -/
def better (s : St) (i : ℕ) : Bool :=
  match s.iBest with
  | none => true
  | some b => (s.store i).lt (s.store b)

/-- `isEquivSSE(i, self.iLastReported)` (ade/report.py:242). -/
def equivLast (s : St) (i : ℕ) : Bool :=
  match s.iLast with
  | none => false
  | some l => equivSSE (s.store i).SSE (s.store l).SSE

/-- `newBest` (ade/report.py:201-254). -/
def newBest (n : ℕ) (s : St) (i : ℕ) (force : Bool) : St :=
  let isBest := better s i
  let s := if isBest then { s with iBest := some i } else s
  let goAhead :=
    if same s.store i s.iLast then false
    else if force then true
    else if !isBest then false
    else !equivLast s i
  if goAhead then runCallbacks n { s with iLast := some i } i s.iBest else s

/-- A progress character, unless suppressed (ade/report.py:432-434). -/
def put (s : St) (noProgress : Bool) (c : Char) : St :=
  if noProgress then s else { s with chars := s.chars ++ [c] }

/-- `__call__` (ade/report.py:372-465): new state, and the ratio returned. -/
def call (n : ℕ) (s : St) (i : ℕ) (iOther : Option ℕ) (noProgress force : Bool) : St × Option ℕ :=
  match iOther with
  | none =>
    if !(s.store i).toBool then (put s noProgress '%', none)
    else
      match s.iBest with
      | none => (put (newBest n s i force) noProgress '*', none)
      | some b =>
        if (s.store i).lt (s.store b) || force then
          (put (newBest n s i force) noProgress '!', none)
        else (put s noProgress (msgRatio (s.store i) (s.store b) '#').2, none)
  | some o =>
    let r := msgRatio (s.store o) (s.store i) '!'
    let s := put s noProgress r.2
    if better s i then
      let s := put (newBest n s i force) noProgress '+'
      ({ s with repl := s.repl ++ [1] }, r.1)
    else (s, r.1)

/-- `Population.report` (ade/population.py:1021-1028) of given individuals; reporting the best member
is the same with `noProgress` and `force` set. -/
def report (n : ℕ) (s : St) (i : ℕ) (iOther : Option ℕ) (noProgress force : Bool) : St × Option ℕ :=
  if !s.running then (s, none)
  else
    let r := call n s i iOther noProgress force
    match r.2 with
    | none => r
    | some q => ({ r.1 with repl := r.1.repl ++ [q] }, some q)

/-- What a callback returns: `None`, something else, or an exception. -/
inductive Result where
  | nothing
  | complaint
  | failure
  deriving DecidableEq

/-- `blacklist` on a stored individual (ade/individual.py:244-250). -/
def blacklist (s : St) (i : ℕ) : St :=
  { s with store := fun j => if j = i then (s.store i).blacklist else s.store j }

/-- After the complaint has been handled (ade/report.py:183-185). -/
def complain (s : St) (i : ℕ) : St :=
  let s := blacklist s i
  match s.prevBest, s.iBest with
  | some p, some b =>
    if (s.store p).toBool && (s.store p).lt (s.store b) then { s with iBest := some p } else s
  | _, _ => s

/-- Events: a report; the current callback returns; the complaint handler returns (`true`) or fails;
an abort (ade/report.py:77-82, ade/population.py:712-728). -/
inductive Event where
  | report (i : ℕ) (iOther : Option ℕ) (noProgress force : Bool)
  | returned (r : Result)
  | handled (ok : Bool)
  | abort
  deriving DecidableEq

/-- One event; `none` if it cannot happen. -/
def step (n : ℕ) (s : St) : Event → Option St
  | .report i o np f => some (report n s i o np f).1
  | .returned r =>
    match s.phase with
    | .calling i k =>
      match r with
      | .failure => some (whileLoop n { s with running := false })
      | .nothing => some (forLoop n s i (k + 1))
      | .complaint =>
        if (s.store i).toBool && s.running then some { s with phase := .complaining i k }
        else some (forLoop n s i (k + 1))
    | _ => none
  | .handled ok =>
    match s.phase with
    | .complaining i k =>
      if ok then some (forLoop n (complain s i) i (k + 1)) else some { s with phase := .dead }
    | _ => none
  | .abort => some { s with running := false }

/-- A sequence of events. -/
def run (n : ℕ) (s : St) : List Event → Option St
  | [] => some s
  | e :: es =>
    match step n s e with
    | none => none
    | some s' => run n s' es

end Reporter
end Ade
