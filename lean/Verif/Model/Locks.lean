import Mathlib.Logic.Function.Basic
import Mathlib.Data.List.Basic
import Mathlib.Data.Int.Basic

/-!
# The locks of a population

`Population.lock` and `Population.release` (ade/population.py:1126-1169) for any indices, also repeated, negative and
too large ones.  Requests are numbered in the order they are made.

A `DeferredLock` is represented by one list of requests: `[]` is unlocked, the head is the request the lock was last
handed to, the tail is its FIFO `waiting` list.

Simplifications: a Deferred that has been cancelled does not occur (no code cancels one).
-/

set_option autoImplicit false

namespace Ade
namespace Locks

/-- `dLocks`, and the flag `running` (`None` counts as true, ade/population.py:1138). -/
structure State where
  n : ℕ
  queue : ℕ → List ℕ
  next : ℕ
  running : Bool

/-- What `lock` does: ValueError (ade/population.py:1143-1144), IndexError (an index below `-n`), a Deferred that has
fired already (ade/population.py:1139, 1148), or one that waits for the acquisitions of the given locks
(ade/population.py:1150). -/
inductive Result where
  | valueError
  | indexError
  | fired
  | requested (ks : List ℕ)
  deriving DecidableEq

/-- Which of `n` items `items[k]` is in Python; `none` for IndexError. -/
def position (n : ℕ) (k : ℤ) : Option ℕ :=
  if 0 ≤ k then if k < n then some k.toNat else none
  else if 0 ≤ n + k then some (n + k).toNat else none

/-- `dLocks[p].acquire()` by request `j` (ade/population.py:1149). -/
def acquire (s : State) (j p : ℕ) : State := { s with queue := Function.update s.queue p (s.queue p ++ [j]) }

/-- `tryRelease(dLocks[p])` (ade/population.py:1160-1162): nothing if it is not locked, else it goes to the first waiting. -/
def tryRelease (s : State) (p : ℕ) : State := { s with queue := Function.update s.queue p (s.queue p).tail }

/-- `release()` (ade/population.py:1168-1169). -/
def releaseAll (s : State) : State := { s with queue := fun p => if p < s.n then (s.queue p).tail else s.queue p }

/-- `release(*indices)` for at least one index (ade/population.py:1164-1167); `false` for IndexError. -/
def release : State → List ℤ → State × Bool
  | s, [] => (s, true)
  | s, k :: ks =>
    match position s.n k with
    | none => (s, false)
    | some p => release (tryRelease s p) ks

/-- The loop of `lock` over `indices` (ade/population.py:1141-1150), `acc` the locks asked for so far. -/
def lockLoop (indices : List ℤ) (j : ℕ) : List ℤ → State → List ℕ → State × Result
  | [], s, acc => (s, .requested acc)
  | k :: ks, s, acc =>
    if 1 < indices.count k then (s, .valueError)
    else if (s.n : ℤ) ≤ k then (releaseAll s, .fired)
    else
      match position s.n k with
      | none => (s, .indexError)
      | some p => lockLoop indices j ks (acquire s j p) (acc ++ [p])

/-- `lock(*indices)` (ade/population.py:1138-1150). -/
def lock (s : State) (indices : List ℤ) : State × Result :=
  if s.running then
    let r := lockLoop indices s.next indices s []
    ({ r.1 with next := s.next + 1 }, r.2)
  else (s, .fired)

/-- The Deferred of request `j` for the locks `ks` has fired: none of its acquisitions waits
(`DeferredList`, ade/population.py:1150). -/
def fired (s : State) (j : ℕ) (ks : List ℕ) : Bool := ks.all fun p => !(s.queue p).tail.contains j

/-! ## Users of the locks -/

/-- The locks together with what each request has asked for and what of it was not given back. -/
structure Users where
  locks : State
  asked : ℕ → List ℕ
  left : ℕ → List ℕ

/-- What users do: ask for locks, give one of them back. -/
inductive Act where
  | ask (indices : List ℤ)
  | give (j : ℕ) (k : ℕ)
  deriving DecidableEq

/-- One act.  A user gives a lock back only after its request was granted, and once (`none` otherwise).  A user whose
request was refused by an exception has nothing to give back. -/
def step (u : Users) : Act → Option Users
  | .ask indices =>
    let j := u.locks.next
    let r := lock u.locks indices
    match r.2 with
    | .requested ks => some { locks := r.1, asked := Function.update u.asked j ks, left := Function.update u.left j ks }
    | _ => some { u with locks := r.1 }
  | .give j k =>
    if k ∈ u.left j ∧ fired u.locks j (u.asked j) = true then
      some { u with locks := (release u.locks [(k : ℤ)]).1, left := Function.update u.left j ((u.left j).erase k) }
    else none

/-- Executing a list of acts. -/
def run : Users → List Act → Option Users
  | u, [] => some u
  | u, a :: as =>
    match step u a with
    | none => none
    | some u' => run u' as

/-- A running population of `n` members, no lock taken (ade/population.py:679, 800). -/
def start (n : ℕ) : Users :=
  { locks := { n := n, queue := fun _ => [], next := 0, running := true }, asked := fun _ => [], left := fun _ => [] }

/-- A request for locks of members, none of them twice. -/
def Careful (n : ℕ) : Act → Prop
  | .ask indices => indices.Nodup ∧ ∀ k ∈ indices, 0 ≤ k ∧ k < n
  | .give _ _ => True

end Locks
end Ade
