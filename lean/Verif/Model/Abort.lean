import Mathlib.Data.List.Basic

/-!
# Model: aborting by a key press

`ade/abort.py`, classes `Keyboard` and `KeyboardHolder` and the module functions. Functions to be called
are numbers; a parameter tells which of them raise an exception when called. They do not register
further functions (those of this package, `Population.abort` and `DifferentialEvolution.shutdown`, do
not), except in `runDownWith`. The keyboard replaced by `restart` receives no more data.
-/

set_option autoImplicit false

namespace Ade
namespace Abort

/-- A call waiting for the reactor (`callLater(0, ...)`, ade/abort.py:129, 154). -/
inductive Task where
  | func (f : ℕ)
  | press
  deriving DecidableEq

/-- The current `Keyboard` (ade/abort.py:54-62): callbacks, `triggerID is not None`, `ignoreAll`; calls
waiting for the reactor; functions called by the keyboard and by the reactor. -/
structure St where
  callbacks : List ℕ
  alive : Bool
  ignoreAll : Bool
  later : List Task
  called : List ℕ
  calledLater : List ℕ
  deriving DecidableEq

/-- A program that has just made its keyboard (ade/abort.py:54-62, 99-113). -/
def start : St := ⟨[], true, false, [], [], []⟩

variable (raises : ℕ → Bool)

/-- The loop of `dataReceived` (ade/abort.py:93-95): functions called, functions left, and whether the
last one called raised. -/
def runDown : List ℕ → List ℕ × List ℕ × Bool
  | [] => ([], [], false)
  | f :: fs =>
    if raises f then ([f], fs, true)
    else
      let r := runDown fs
      (f :: r.1, r.2)

/-- The loop of `dataReceived` (ade/abort.py:93-95) for functions that register others when they are called (`registers f`, in order;
ade/abort.py:125-130, 64-70), while the keyboard is not yet shut down: the functions called in the given number of turns, and those
left. -/
def runDownWith (registers : ℕ → List ℕ) : ℕ → List ℕ → List ℕ × List ℕ
  | _, [] => ([], [])
  | 0, fs => ([], fs)
  | n + 1, f :: fs =>
    let r := runDownWith registers n (fs ++ registers f)
    (f :: r.1, r.2)

/-- `Keyboard.shutdown` (ade/abort.py:72-79). -/
def shutdown (s : St) : St := { s with alive := false }

/-- `dataReceived` (ade/abort.py:87-96). -/
def dataReceived (s : St) : St :=
  if s.ignoreAll then s
  else
    let r := runDown raises s.callbacks
    let s := { s with callbacks := r.2.1, called := s.called ++ r.1 }
    if r.2.2 then s else shutdown s

/-- `callOnAbort` (ade/abort.py:125-130, 64-70) with an object that is callable or not; one that is not
raises and changes nothing. -/
def callOnAbort (s : St) (f : ℕ) (callable : Bool) : St :=
  if !callable then s
  else if s.alive then { s with callbacks := s.callbacks ++ [f] }
  else { s with later := s.later ++ [.func f] }

/-- Events: registering a function; a key press; `abortNow()`; the reactor makes the next waiting call;
`shutdown()`; `restart()`; `ignoreKeyboard()` (ade/abort.py:132-167). -/
inductive Event where
  | register (f : ℕ) (callable : Bool)
  | press
  | abortNow
  | turn
  | shutdown
  | restart
  | ignore
  deriving DecidableEq

/-- One event. -/
def step (s : St) : Event → St
  | .register f c => callOnAbort s f c
  | .press => dataReceived raises s
  | .abortNow => { s with later := s.later ++ [.press] }
  | .turn =>
    match s.later with
    | [] => s
    | .func f :: rest => { s with later := rest, calledLater := s.calledLater ++ [f] }
    | .press :: rest => dataReceived raises { s with later := rest }
  | .shutdown => shutdown s
  | .restart => { s with callbacks := [], alive := true, ignoreAll := false }
  | .ignore => { s with ignoreAll := true }

/-- A sequence of events. -/
def run (s : St) (es : List Event) : St := es.foldl (step raises) s

end Abort
end Ade
