import Mathlib.Data.List.Basic

/-!
# Showing plots in an image viewer

Model of `ade/image.py`, class `ImageViewer`: a state machine that is told of changes of the image file, of the end of
viewer processes, and of the end of the program.  Simplifications: the file system and process table enter as
arguments of the events; signals and messages are recorded.
-/

set_option autoImplicit false

namespace Ade
namespace Image

/-- An entry of `exList` (ade/image.py:56-59): the program, its options, and whether the program exists. -/
structure Viewer where
  path : String
  opts : List String
  installed : Bool

/-- What is in the PID file (ade/image.py:117-121): a number, or something else (also nothing at all: then `PID` is
undefined and the resulting `NameError` is caught like a missing process, ade/image.py:125-126). -/
inductive PidText where
  | number (n : ℕ)
  | other

/-- A message (ade/image.py:161, 165). -/
inductive Msg where
  | launchError (viewer : ℕ)
  | noViewer
  deriving DecidableEq

/-- The state of `spawnViewer`: not called, waiting for the end of a viewer, or returned. -/
inductive Stage where
  | idle
  | showing (viewer : ℕ)
  | over
  deriving DecidableEq

/-- State of an `ImageViewer`: is the file watched, is `transport` set, where is `spawnViewer`, the PID file, the viewers
started so far and those of them still running, the messages, and the number of calls of `termViewer`
(ade/image.py:167-171), which sends a signal to the viewer. -/
structure St where
  watching : Bool
  transport : Bool
  stage : Stage
  pidFile : Option PidText
  started : List ℕ
  running : List ℕ
  msgs : List Msg
  signals : ℕ

/-- A new object (ade/image.py:75-87); a PID file may be there. -/
def start (pidFile : Option PidText) : St := ⟨true, false, .idle, pidFile, [], [], [], 0⟩

/-- `processRunning` (ade/image.py:110-127); `alive` tells which processes exist. -/
def processRunning (s : St) (alive : ℕ → Bool) : Bool :=
  match s.pidFile with
  | some (.number n) => alive n
  | _ => false

/-- The first viewer from position `i` on that exists (ade/image.py:145-147); `n` bounds the search. -/
def next (vs : List Viewer) : ℕ → ℕ → Option ℕ
  | _, 0 => none
  | i, n + 1 =>
    match vs[i]? with
    | none => none
    | some v => if v.installed then some i else next vs (i + 1) n

/-- Settings: the viewers, `noComplain`, and the process numbers that the system gives to the processes started. -/
structure Config where
  viewers : List Viewer
  noComplain : Bool
  pids : ℕ → ℕ

/-- The loop of `spawnViewer` from position `i` until it waits or returns (ade/image.py:145-165). -/
def spawnFrom (c : Config) (s : St) (i : ℕ) : St :=
  match next c.viewers i c.viewers.length with
  | some j => { s with
      transport := true
      stage := .showing j
      pidFile := some (.number (c.pids s.started.length))
      started := s.started ++ [j]
      running := j :: s.running }
  | none => { s with stage := .over, msgs := if c.noComplain then s.msgs else s.msgs ++ [.noViewer] }

/-- What happens. -/
inductive Event where
  /-- the file is changed, removed or moved; `isfile` tells if it exists then -/
  | change (isfile : Bool) (alive : ℕ → Bool)
  /-- the viewer process ends; did it write to its error output? -/
  | ended (stderr : Bool)
  /-- the program ends -/
  | shutdown

/-- The reaction to an event: `notify` (ade/image.py:90-98; not called unless watching), the end of a viewer
(ade/image.py:158-165), `_stopNotifier` (ade/image.py:105-108). -/
def step (c : Config) (s : St) : Event → St
  | .change isfile alive =>
    if s.watching then
      if s.transport then
        if isfile then s
        else { s with signals := s.signals + 1, transport := false }
      else if isfile && !processRunning s alive then
        { spawnFrom c s 0 with watching := false }
      else s
    else s
  | .ended stderr =>
    match s.stage with
    | .showing j =>
      let s := { s with running := s.running.erase j }
      if stderr then
        spawnFrom c { s with msgs := if c.noComplain then s.msgs else s.msgs ++ [.launchError j] } (j + 1)
      else { s with stage := .over }
    | _ => s
  | .shutdown => { s with watching := false }

/-- A sequence of events. -/
def run (c : Config) (s : St) (es : List Event) : St := es.foldl (step c) s

/-- `"{}" in arg` (ade/image.py:151). -/
def hasField (arg : List Char) : Bool :=
  match arg with
  | [] => false
  | [_] => false
  | a :: b :: t => (a == '{' && b == '}') || hasField (b :: t)

/-- `arg.replace("{}", name)` (ade/image.py:152). -/
def fill (name : List Char) : List Char → List Char
  | [] => []
  | [a] => [a]
  | a :: b :: t => if a = '{' ∧ b = '}' then name ++ fill name t else a :: fill name (b :: t)

/-- The arguments of the viewer process (ade/image.py:149-154): `base` is the name of the program, `name` the name of the
image file and `path` its path. -/
def arguments (base name path : List Char) (opts : List (List Char)) : List (List Char) :=
  base :: (opts.filter hasField).map (fill name) ++ [path]

end Image
end Ade
