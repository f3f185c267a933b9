import Verif.Model.ClosestPair
import Mathlib.Data.List.Sort

/-!
# The evaluation history

Model of `ade/history.py`, class `History`.

* The array `X` is a function from row numbers to rows; rows `≥ nMax` do not exist (an access is an
  `IndexError`).
* Storing into the float32 array is a rounding function `f4`, applied entrywise.
* Every public operation runs under the `DeferredLock` `dLock`, so operations are atomic and take effect
  in the order in which they were requested.  `held` tells if the lock was left acquired forever by an
  exception inside `add`, which has no `try/finally` around its critical section.
* The individual does not change between the call of `add` and its turn.
* `Analysis` (`a`) shares `K`, `Kp`, `Kn` with the history and is not a separate state.
-/

set_option autoImplicit false

namespace Ade
namespace History
open ClosestPair

/-- What the history sees of an individual: score, values, and `hash(i)` (`none` if computing the hash
raises `OverflowError`, ade/individual.py:189-191). -/
structure Ind where
  sse : PyFloat
  values : List PyFloat
  key : Option Int
  deriving DecidableEq

/-- One row of `X`: the stored score (column 0) and the stored values. -/
structure Row where
  sse : PyFloat
  values : List PyFloat
  deriving DecidableEq

/-- `np.all(np.isfinite(Z))` for a row (ade/history.py:615). -/
def Row.finite (r : Row) : Bool := r.sse.isFinite && r.values.all PyFloat.isFinite

/-- The row written for an individual (ade/history.py:1029-1030): everything converted to float32. -/
def rowOf (f4 : PyFloat → PyFloat) (i : Ind) : Row := ⟨f4 i.sse, i.values.map f4⟩

/-- `History` (ade/history.py:801-844): see the module comment. -/
structure Hist where
  nMax : Nat
  nTotal : Nat
  X : Nat → Row
  K : List Nat
  Kp : Finset Nat
  Kn : Finset Nat
  kr : Int → Option Nat
  cpf : Finder
  held : Bool

/-- The constructor (ade/history.py:834-844, 875-881). -/
def init (nMax : Nat) : Hist :=
  ⟨nMax, 0, fun _ => ⟨.fin 0, []⟩, [], ∅, ∅, fun _ => none, .empty, false⟩

/-- The position of the new record: `np.searchsorted(X[K,0], SSE)` (ade/history.py:990), for scores in
order the number of records with a smaller score. -/
def position (h : Hist) (sse : PyFloat) : Nat :=
  (h.K.takeWhile fun r => (h.X r).sse.lt sse).length

/-- The loop of `kkr` (ade/history.py:994-1000) over the sorted rows: `a`, `kr`, `c` are `K[kk]`,
`K[kk+1]`, `K[kk+2]`.  `none`: the loop ended or broke without a result. -/
def scan (N : Nat) : List Nat → Option Nat
  | a :: kr :: c :: rest =>
    if kr = 0 then scan N (kr :: c :: rest)
    else if kr + 1 = N then none
    else if a + 1 ≠ kr then some (kr - 1)
    else if c ≠ kr + 1 then some (kr + 1)
    else scan N (kr :: c :: rest)
  | _ => none

/-- The row picked by `kkr` (ade/history.py:987-1003) from the sorted row numbers; `none` is the
exception for an empty list. -/
def pickRow (Ks : List Nat) (N : Nat) : Option Nat :=
  match Ks with
  | [] => none
  | k0 :: ks =>
    match scan N (k0 :: ks) with
    | some r => some r
    | none =>
      if k0 > 0 then some (k0 - 1)
      else some (min N ((k0 :: ks).getLast (by simp) + 1))

/-- `K.sort()` (ade/history.py:993). -/
def sortRows (K : List Nat) : List Nat := K.insertionSort (· ≤ ·)

/-- `purge` (ade/history.py:1071-1088); `none` is the `IndexError`. -/
def purge (h : Hist) (r : Nat) : Option Hist :=
  if r ∈ h.K then
    some { h with K := h.K.erase r, cpf := h.cpf.clearRow r, Kp := h.Kp.erase r, Kn := h.Kn.erase r }
  else none

/-- What `add` reports: the row number, nothing because the score is unusable, an exception, or that it
waits forever for the lock. -/
inductive Res where
  | row (r : Nat)
  | skipped
  | error
  | blocked
  deriving DecidableEq

/-- `writeRecord` (ade/history.py:1023-1046).  The result tells if it finished without an exception; on
an exception the changes made before it stay. -/
def writeRecord (f4 : PyFloat → PyFloat) (h : Hist) (i : Ind) (neverInPop : Bool) (k r : Nat) :
    Hist × Bool :=
  if r < h.nMax then
    let h1 : Hist := { h with
      X := fun r' => if r' = r then rowOf f4 i else h.X r'
      K := h.K.insertIdx k r
      nTotal := h.nTotal + 1 }
    if neverInPop then
      match h.cpf.setRow r (rowOf f4 i).finite true with
      | none => (h1, false)
      | some c => ({ h1 with cpf := c, Kn := insert r h1.Kn }, true)
    else
      let h2 : Hist := { h1 with Kp := insert r h1.Kp, cpf := h1.cpf.clearRow r }
      match i.key with
      | none => (h2, false)
      | some key => ({ h2 with kr := fun k' => if k' = key then some r else h2.kr k' }, true)
  else (h, false)

/-- End of the critical section of `add` (ade/history.py:1066-1067): write, then release the lock
(which is skipped by an exception). -/
def finishAdd (f4 : PyFloat → PyFloat) (h : Hist) (i : Ind) (neverInPop : Bool) (k r : Nat) :
    Hist × Res :=
  match writeRecord f4 h i neverInPop k r with
  | (h', true) => (h', .row r)
  | (h', false) => ({ h' with held := true }, .error)

/-- The part of `add` that calls `kkr(SSE, N)` and then writes. -/
def placeAndFinish (f4 : PyFloat → PyFloat) (h : Hist) (i : Ind) (neverInPop : Bool) (N : Nat) :
    Hist × Res :=
  match pickRow (sortRows h.K) N with
  | none => ({ h with held := true }, .error)
  | some r => finishAdd f4 h i neverInPop (position h i.sse) r

/-- `add` (ade/history.py:1005-1069).  `choose` is what `cpf()` yields for the active rows, `none` its
exception. -/
def add (f4 : PyFloat → PyFloat) (h : Hist) (i : Ind) (neverInPop : Bool)
    (choose : Finset Nat → Option Nat) : Hist × Res :=
  if i.sse.isFinite then
    if h.held then (h, .blocked)
    else
      let N := h.K.length
      if N = 0 then finishAdd f4 h i neverInPop 0 0
      else if N < h.nMax then placeAndFinish f4 h i neverInPop N
      else
        match choose h.cpf.K with
        | none => ({ h with held := true }, .error)
        | some v =>
          match purge h v with
          | none => ({ h with held := true }, .error)
          | some h1 => placeAndFinish f4 h1 i neverInPop N
  else (h, .skipped)

/-- The common end of `notInPop` (ade/history.py:1107-1110).  An exception of `setRow` or of the row
access is swallowed into the returned Deferred; the lock is released (`DeferredLock.run`). -/
def leavePop (h : Hist) (r : Nat) : Hist :=
  let h1 : Hist := { h with Kp := h.Kp.erase r }
  if r < h.nMax then
    match h.cpf.setRow r (h.X r).finite false with
    | none => h1
    | some c => { h1 with cpf := c }
  else h1

/-- `notInPop` with a row number (ade/history.py:1090-1111). -/
def notInPopRow (h : Hist) (r : Nat) : Hist :=
  if h.held then h else leavePop h r

/-- `notInPop` with an individual (ade/history.py:1090-1111); an individual whose hash can not be
computed makes the Deferred fail. -/
def notInPop (h : Hist) (i : Ind) : Hist :=
  if h.held then h
  else
    match i.key with
    | none => h
    | some key =>
      match h.kr key with
      | none => h
      | some r => leavePop { h with kr := fun k' => if k' = key then none else h.kr k' } r

/-- `purgePop` (ade/history.py:1113-1124): every row of `Kp` is purged, then the map is cleared.  The
order does not matter.  (A member row missing from `K` would be an `IndexError`; it is shown that there is
none.) -/
def purgePop (h : Hist) : Hist :=
  if h.held then h
  else
    { h with
      K := h.K.filter fun r => decide (r ∉ h.Kp)
      cpf := ⟨h.cpf.K \ h.Kp, h.cpf.Kn \ (h.Kp ∩ h.cpf.K)⟩
      Kn := h.Kn \ h.Kp
      Kp := ∅
      kr := fun _ => none }

/-- `clear` (ade/history.py:914-930). -/
def clear (h : Hist) : Hist :=
  if h.held then h
  else { h with K := [], Kp := ∅, Kn := ∅, cpf := .empty, kr := fun _ => none, nTotal := 0 }

/-- The operations on a history. -/
inductive Op where
  | add (i : Ind) (neverInPop : Bool) (choose : Finset Nat → Option Nat)
  | notInPop (i : Ind)
  | notInPopRow (r : Nat)
  | purgePop
  | clear

/-- Effect of an operation. -/
def step (f4 : PyFloat → PyFloat) (h : Hist) : Op → Hist
  | .add i nip ch => (add f4 h i nip ch).1
  | .notInPop i => notInPop h i
  | .notInPopRow r => notInPopRow h r
  | .purgePop => purgePop h
  | .clear => clear h

/-- Effect of a sequence of operations. -/
def run (f4 : PyFloat → PyFloat) (h : Hist) (ops : List Op) : Hist := ops.foldl (step f4) h

/-- Iterating the history with `__getitem__` (ade/history.py:894-912): the records in order. -/
def records (h : Hist) : List Row := h.K.map h.X

/-! ## Saving and loading -/

/-- The pickled state (ade/history.py:846-859).  The index sequences are arrays of 16-bit unsigned
integers; the sets are written as lists in some order. -/
structure Saved where
  nMax : Nat
  nTotal : Nat
  X : Nat → Row
  K : List Nat
  Kp : List Nat
  Kn : List Nat
  kr : Int → Option Nat

/-- Conversion of an index to `'u2'` (`seq2bytes`, ade/history.py:45-58). -/
def u2 (n : Nat) : Nat := n % 65536

/-- `__getstate__` (ade/history.py:846-859); `lp`, `ln` are the sets `Kp`, `Kn` as lists in iteration
order.  The array `X` is saved exactly. -/
def save (h : Hist) (lp ln : List Nat) : Saved :=
  ⟨h.nMax, h.nTotal, h.X, h.K.map u2, lp.map u2, ln.map u2, h.kr⟩

/-- The loop of `_initialize` (ade/history.py:878-880) rebuilding the eligible rows; `none` is the
`ValueError` for a row with a non-finite entry, or the `IndexError` for a row outside the array. -/
def rebuild (s : Saved) : List Nat → Option Finder
  | [] => some .empty
  | r :: rs =>
    match rebuild s rs with
    | none => none
    | some c =>
      if r ∈ s.Kp then some c
      else if r < s.nMax then c.setRow r (s.X r).finite (decide (r ∈ s.Kn)) else none

/-- `__setstate__` (ade/history.py:861-881): everything is restored, the eligible rows are rebuilt, and the
lock is new.  (The order of the rebuilding does not matter; it is done from the end of the list here.) -/
def load (s : Saved) : Option Hist :=
  match rebuild s s.K with
  | none => none
  | some c => some ⟨s.nMax, s.nTotal, s.X, s.K, s.Kp.toFinset, s.Kn.toFinset, s.kr, c, false⟩

end History
end Ade
