import Verif.Model.History

/-!
# Model: requests to a history and its lock

Model of how the public methods of `ade/history.py`, class `History`, share the `DeferredLock` `dLock`.
`Model/History.lean` describes each operation as if it were atomic; here a request is queued for the lock, and
`add` on a full roster keeps the lock while the closest-pair finder works in the background (`yield
self.cpf()`), during which further requests may come in.

* A `DeferredLock` is handed over in the order of the requests (contract of Twisted).
* The finder works in chunks on the data as they are when it starts (`act`); its result comes later.
* A request that returns at once (`add` with an infinite or NaN score) never asks for the lock.
-/

set_option autoImplicit false

namespace Ade
namespace HistoryLock
open History

/-- A request: one of the operations, or one that changes nothing and fires when it has had the lock:
`shutdown` (ade/history.py:883-884) and `value_vs_SSE` (ade/history.py:932-944). -/
inductive Req where
  | op (o : Op)
  | sync

/-- Does the request ask for the lock? `add` does so only for a finite score (ade/history.py:1049-1050, 1068). -/
def needsLock : Req → Bool
  | .op (.add i _ _) => i.sse.isFinite
  | _ => true

/-- An `add` that waits for the closest-pair finder (ade/history.py:1063): its number, its arguments, and what
was found when it got the lock: the number of records (ade/history.py:1051) and the rows considered. -/
structure Wait where
  id : ℕ
  i : Ind
  neverInPop : Bool
  choose : Finset ℕ → Option ℕ
  N : ℕ
  act : Finset ℕ

/-- State: the history, the number of requests so far, those waiting for the lock, the `add` that has the lock
and waits for the finder, and the Deferreds that have fired: number of the request, result (of an `add`), and
the history at that moment. -/
structure LSt where
  hist : Hist
  next : ℕ
  pending : List (ℕ × Req)
  current : Option Wait
  fired : List (ℕ × Option Res × Hist)

/-- Start with a given history. -/
def start (h : Hist) : LSt := ⟨h, 0, [], none, []⟩

/-- Events: a method is called, the next waiting request gets the lock, the finder has a result. -/
inductive Ev where
  | request (r : Req)
  | begin
  | found

/-- A method is called. -/
def request (s : LSt) (r : Req) : LSt :=
  if needsLock r then { s with next := s.next + 1, pending := s.pending ++ [(s.next, r)] }
  else { s with next := s.next + 1, fired := s.fired ++ [(s.next, some .skipped, s.hist)] }

/-- The end of a request: its Deferred fires. -/
def fire (s : LSt) (id : ℕ) (res : Option Res) (h : Hist) : LSt :=
  { s with hist := h, current := none, fired := s.fired ++ [(id, res, h)] }

/-- What a request does when it gets the lock, until its end or its first wait. -/
def run1 (f4 : PyFloat → PyFloat) (s : LSt) (id : ℕ) : Req → LSt
  | .sync => fire s id none s.hist
  | .op (.notInPop i) => fire s id none (notInPop s.hist i)
  | .op (.notInPopRow r) => fire s id none (notInPopRow s.hist r)
  | .op .purgePop => fire s id none (purgePop s.hist)
  | .op .clear => fire s id none (clear s.hist)
  | .op (.add i nip ch) =>
    let N := s.hist.K.length
    if N = 0 then
      let r := finishAdd f4 s.hist i nip 0 0
      fire s id (some r.2) r.1
    else if N < s.hist.nMax then
      let r := placeAndFinish f4 s.hist i nip N
      fire s id (some r.2) r.1
    else { s with current := some ⟨id, i, nip, ch, N, s.hist.cpf.K⟩ }

/-- The rest of `add` after the finder's result (ade/history.py:1063-1067), `none` being its exception. -/
def afterFinder (f4 : PyFloat → PyFloat) (h : Hist) (w : Wait) : Hist × Res :=
  match w.choose w.act with
  | none => ({ h with held := true }, .error)
  | some v =>
    match purge h v with
    | none => ({ h with held := true }, .error)
    | some h1 => placeAndFinish f4 h1 w.i w.neverInPop w.N

/-- One event; `none` if it is not possible. The lock is free when no `add` waits for the finder and none has
left it acquired. -/
def step (f4 : PyFloat → PyFloat) (s : LSt) : Ev → Option LSt
  | .request r => some (request s r)
  | .begin =>
    if s.hist.held then none
    else
      match s.current, s.pending with
      | none, (id, r) :: rest => some (run1 f4 { s with pending := rest } id r)
      | _, _ => none
  | .found =>
    match s.current with
    | none => none
    | some w =>
      let r := afterFinder f4 s.hist w
      some (fire s w.id (some r.2) r.1)

/-- A sequence of events. -/
def exec (f4 : PyFloat → PyFloat) (s : LSt) : List Ev → Option LSt
  | [] => some s
  | e :: es =>
    match step f4 s e with
    | none => none
    | some s' => exec f4 s' es

end HistoryLock
end Ade
