import Verif.Model.Individual
import Mathlib.Data.List.Sort

/-!
# Population members, ranking and its cache

Model of the container part of `ade/population.py`, class `Population`: the member list, the list of
index locks (only its length matters here), and the two cached rankings `_KS` and `_iSorted`.

Simplifications: the history, the reporter and the lock contents are modelled elsewhere; indices are
not negative; `np.argsort` is a parameter `sort` (any function, so that its unspecified order of ties
is covered).
-/

set_option autoImplicit false

namespace Ade
namespace Population

/-- `self.Np` in `Population.__init__` (ade/population.py:388-394, 421-423).  `popsize` is the keyword:
`none` for the default 10; a zero is also replaced by the default. -/
def sizeOf (popsize : Option ℤ) (Nd : ℕ) : ℤ :=
  let ps : ℤ := match popsize with
    | none => 10
    | some p => if p = 0 then 10 else p
  max 20 (min (ps * Nd) 500)

/-- Members, number of locks, cached `_KS`, cached `_iSorted` (ade/population.py:398, 672-686). -/
structure Pop where
  members : List Individual
  locks : ℕ
  ks : Option (List ℕ)
  sorted : Option (List Individual)
  deriving DecidableEq

/-- A population after `__init__` or `clear` (ade/population.py:400-425, 672-686). -/
def empty : Pop := ⟨[], 0, none, none⟩

/-- `[float(i.SSE) for i in self.iList]` (ade/population.py:586). -/
def scores (p : Pop) : List PyFloat := p.members.map Individual.toFloat

/-- `del self.KS`, which also deletes `iSorted` (ade/population.py:588-595, 607-614). -/
def invalidate (p : Pop) : Pop := { p with ks := none, sorted := none }

section
variable (sort : List PyFloat → List ℕ)

/-- Property `KS` (ade/population.py:578-587): the updated object and the value. -/
def readKS (p : Pop) : Pop × Option (List ℕ) :=
  match p.ks with
  | some k => (p, some k)
  | none =>
    if p.members.isEmpty then (p, none)
    else
      let k := sort (scores p)
      ({ p with ks := some k }, some k)

/-- `[self.iList[k] for k in self.KS]` (ade/population.py:605). -/
def pick (p : Pop) (ks : List ℕ) : List Individual := ks.filterMap fun k => p.members[k]?

/-- Property `iSorted` (ade/population.py:597-606). -/
def readSorted (p : Pop) : Pop × Option (List Individual) :=
  if p.ks.isNone || p.sorted.isNone then
    if p.members.isEmpty then (p, p.sorted)
    else
      let (p', k) := readKS sort p
      let l := pick p (k.getD [])
      ({ p' with sorted := some l }, some l)
  else (p, p.sorted)

/-- Property `kBest` (ade/population.py:616-623). -/
def readKBest (p : Pop) : Pop × Option ℕ :=
  let (p', k) := readKS sort p
  (p', k.bind List.head?)

/-- `best` (ade/population.py:1171-1176). -/
def best (p : Pop) : Pop × Option Individual :=
  if p.members.isEmpty then (p, none)
  else
    let (p', k) := readKBest sort p
    (p', k.bind fun k => p.members[k]?)

/-- `__setitem__` (ade/population.py:526-547), `none` for the `IndexError` of an invalid index. -/
def assign (p : Pop) (k : ℕ) (i : Individual) : Option Pop :=
  if k < p.members.length then
    some (invalidate { p with members := p.members.set k i })
  else none

/-- `push` (ade/population.py:1046-1053), `none` for the `TypeError` of an empty population. -/
def push (p : Pop) (i : Individual) : Option Pop :=
  let (p', k) := readKS sort p
  match k.bind List.getLast? with
  | none => none
  | some kWorst => (assign p' kWorst i).map invalidate

/-- `addIndividual` in `setup` (ade/population.py:794-801): the cached ranking is not touched. -/
def append (p : Pop) (i : Individual) : Pop :=
  { p with members := p.members ++ [i], locks := p.locks + 1 }

/-- `initialize` (ade/population.py:730-738). -/
def initialise (p : Pop) : Pop := invalidate p

/-- `clear` (ade/population.py:672-686). -/
def clear (_ : Pop) : Pop := empty

/-- A completed `setup` (ade/population.py:740-846) that ended up with the members `js`, without
queries in between. -/
def refill (_ : Pop) (js : List Individual) : Pop := initialise (js.foldl append empty)

/-- `self[k].blacklist()` (ade/individual.py:244-250), `none` for the `IndexError`. -/
def blacklist (p : Pop) (k : ℕ) : Option Pop :=
  match p.members[k]? with
  | none => none
  | some i => some (invalidate { p with members := p.members.set k i.blacklist })

/-- A member is given another score in place (e.g. `self[k].SSE = x` or a re-evaluation,
ade/individual.py:123-128, 289): the population is not told. -/
def rescore (p : Pop) (k : ℕ) (x : Option PyFloat) : Option Pop :=
  match p.members[k]? with
  | none => none
  | some i => some { p with members := p.members.set k (i.setSSE x) }

/-- Operations of the interface. -/
inductive Op where
  | assign (k : ℕ) (i : Individual)
  | push (i : Individual)
  | clear
  | refill (js : List Individual)
  | blacklist (k : ℕ)
  | readKS
  | readSorted
  | readBest

/-- One operation; one that raises leaves the population's members and caches as they are, except
that `push` may have filled the cache. -/
def step (p : Pop) : Op → Pop
  | .assign k i => (assign p k i).getD p
  | .push i => (push sort p i).getD (readKS sort p).1
  | .clear => clear p
  | .refill js => refill p js
  | .blacklist k => (blacklist p k).getD p
  | .readKS => (readKS sort p).1
  | .readSorted => (readSorted sort p).1
  | .readBest => (best sort p).1

/-- A sequence of operations. -/
def run (p : Pop) (ops : List Op) : Pop := ops.foldl (step sort) p

end

/-- A stable ranking with NaN last, one possible result of `np.argsort`. -/
def stableSort (xs : List PyFloat) : List ℕ :=
  (List.range xs.length).insertionSort fun a b =>
    let x := xs.getD a .nan
    let y := xs.getD b .nan
    y.isNaN = true ∨ (x.isNaN = false ∧ y.lt x = false)

end Population
end Ade
