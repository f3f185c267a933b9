import Verif.Model.Challenge

/-!
# Who shares which array

The other modules treat the values of an individual as a value of its own.  In Python they are a numpy
array that can be changed in place and that several names can refer to.  This module models the arrays as
cells of a heap, with the operations of `ade/individual.py`, `ade/population.py` and `ade/de.py` that make,
change or share them, so that what the other modules assume can be proved.

Simplifications: values are exact rationals; scores are left out (they are not arrays); in-place changes by
user code are arbitrary functions on the content of one array; locks are left out, so that any order of
operations is allowed; the constraints are given a `dict` of numbers (ade/population.py:215-235), never an
array, so they are left out too.
-/

set_option autoImplicit false

namespace Ade
namespace Arrays

/-- The content of every array made so far.  A reference to an array is its number in order of creation. -/
abbrev Heap := List (List ℚ)

/-- Content of the array referred to. -/
def get (h : Heap) (r : ℕ) : List ℚ := h.getD r []

/-- A new array: `np.array(values)` of a list or tuple (ade/individual.py:265), or the result of numpy
arithmetic, `np.where` and `np.clip`. -/
def alloc (h : Heap) (vs : List ℚ) : Heap × ℕ := (h ++ [vs], h.length)

/-- The array changed in place. -/
def write (h : Heap) (r : ℕ) (w : List ℚ → List ℚ) : Heap := h.modify r w

/-- `__setitem__` (ade/individual.py:162-166): in place. -/
def setItem (h : Heap) (r : ℕ) (k : ℕ) (v : ℚ) : Heap := write h r (·.set k v)

/-- What is given to `update`, `spawn` or the constructor. -/
inductive Arg where
  /-- a list or tuple -/
  | seq (vs : List ℚ)
  /-- an array -/
  | arr (r : ℕ)

/-- `update` (ade/individual.py:252-266), also called by the constructor (ade/individual.py:68-75) and so by
`spawn` (ade/individual.py:130-135, ade/population.py:702-710): `none` is the `ValueError`.  A list or tuple
is made an array; an array is kept as it is. -/
def update (Nd : ℕ) (h : Heap) : Arg → Option (Heap × ℕ)
  | .seq vs => if vs.length ≠ Nd then none else some (alloc h vs)
  | .arr r => if (get h r).length ≠ Nd then none else some (h, r)

/-- `i0 - i1` (ade/individual.py:224-229). -/
def sub (h : Heap) (a b : ℕ) : Heap × ℕ := alloc h (List.zipWith (· - ·) (get h a) (get h b))

/-- `iBase + i` (ade/individual.py:231-236). -/
def add (h : Heap) (a b : ℕ) : Heap × ℕ := alloc h (List.zipWith (· + ·) (get h a) (get h b))

/-- `i * F` (ade/individual.py:238-242). -/
def scale (h : Heap) (a : ℕ) (F : ℚ) : Heap × ℕ := alloc h ((get h a).map (· * F))

/-- `copy` (ade/individual.py:137-144): the values go through a list. -/
def copy (h : Heap) (a : ℕ) : Heap × ℕ := alloc h (get h a)

/-- `crossover(parent, mutant)` (ade/de.py:444-462): items of the mutant's array are changed in place. -/
def crossover (CR : ℚ) (Nd : ℕ) (d : Challenge.Draws) (h : Heap) (parent mutant : ℕ) : Heap :=
  (List.range Nd).foldl (fun h k =>
    if k = d.j then h
    else if CR < d.u k then setItem h mutant k ((get h parent).getD k default)
    else h) h

/-- `ParameterManager.limit` (ade/population.py:249-251): `np.where` twice and `np.clip`, each a new array. -/
def limit (bs : List Bound) (h : Heap) (r : ℕ) : Heap × ℕ :=
  let p := alloc h (List.zipWith (fun b v => if v < b.lo then 2 * b.lo - v else v) bs (get h r))
  let q := alloc p.1 (List.zipWith (fun b v => if v > b.hi then 2 * b.hi - v else v) bs (get p.1 p.2))
  alloc q.1 (List.zipWith (fun b v => min (max v b.lo) b.hi) bs (get q.1 q.2))

/-- The challenger's array (ade/de.py:532-535), `Population.limit` included (ade/population.py:688-700):
the individual is made to refer to the limited array. -/
def challenger (c : Challenge.Config) (d : Challenge.Draws) (h : Heap) (t b i0 i1 : ℕ) : Heap × ℕ :=
  let p := sub h i0 i1
  let q := scale p.1 p.2 d.F
  let m := add q.1 b q.2
  limit c.bounds (crossover c.CR c.bounds.length d m.1 t m.2) m.2

/-- Individuals made so far (each is known by its number and has one array), population and history. -/
structure St where
  heap : Heap
  /-- array of each individual -/
  inds : List ℕ
  /-- individuals in the population, `iList` -/
  members : List ℕ
  /-- values in the history's rows, in order of addition -/
  record : List (List ℚ)

/-- The array of an individual; `none` if there is no such individual. -/
def St.ref (s : St) (i : ℕ) : Option ℕ := s.inds[i]?

/-- The array of the member at an index. -/
def St.at (s : St) (k : ℕ) : Option ℕ := s.members[k]?.bind s.ref

/-- The arrays of the members at four indices; `none` if one is too large, when `individuals` returns `None`
and no challenger is made (ade/de.py:516-521). -/
def St.sample (s : St) (kt kb k0 k1 : ℕ) : Option (ℕ × ℕ × ℕ × ℕ) :=
  (s.at kt).bind fun t => (s.at kb).bind fun b => (s.at k0).bind fun i0 => (s.at k1).map fun i1 =>
    (t, b, i0, i1)

/-- What can happen to arrays. -/
inductive Op where
  /-- `getIndividual` of `setup` (ade/population.py:783-792) with a row of initial values -/
  | initial (row : List ℚ)
  /-- the challenger of a challenge (ade/de.py:531-535) made from the members at four indices -/
  | challenge (kt kb k0 k1 : ℕ) (d : Challenge.Draws)
  /-- `copy` (ade/individual.py:137-144) -/
  | copy (i : ℕ)
  /-- `update` with a list (ade/individual.py:252-266) -/
  | set (i : ℕ) (vs : List ℚ)
  /-- code that has been given the array of individual `i` changes it in place: an evaluation function
  (ade/individual.py:299-301, ade/population.py:661-669), a report callback (ade/report.py:164-165), or
  `i[k] = v` (ade/individual.py:162-166) -/
  | write (i : ℕ) (w : List ℚ → List ℚ)
  /-- `addIndividual` (ade/population.py:794-801) -/
  | join (i : ℕ)
  /-- `self.p[k] = i` (ade/population.py:526-547) -/
  | replace (k i : ℕ)
  /-- `history.add(i, neverInPop=True)` (ade/de.py:551-552) -/
  | note (i : ℕ)

/-- `history.add` (ade/history.py:1029-1030): `np.array([i.SSE] + list(i.values))` is copied into a row. -/
def St.add (s : St) (r : ℕ) : St := { s with record := s.record ++ [get s.heap r] }

/-- A new individual with the given array. -/
def St.new (s : St) (q : Heap × ℕ) : St := { s with heap := q.1, inds := s.inds ++ [q.2] }

/-- `getIndividual` (ade/population.py:783-792) with a row of initial values. -/
def initial (bs : List Bound) (h : Heap) (row : List ℚ) : Heap × ℕ :=
  limit bs (alloc h row).1 (alloc h row).2

/-- One operation on the arrays.  Operations on individuals that do not exist do nothing. -/
def step (c : Challenge.Config) (s : St) : Op → St
  | .initial row => s.new (Arrays.initial c.bounds s.heap row)
  | .challenge kt kb k0 k1 d =>
    match s.sample kt kb k0 k1 with
    | some (t, b, i0, i1) => s.new (challenger c d s.heap t b i0 i1)
    | none => s
  | .copy i =>
    match s.ref i with
    | some r => s.new (Arrays.copy s.heap r)
    | none => s
  | .set i vs =>
    match update c.bounds.length s.heap (.seq vs) with
    | some q => { s with heap := q.1, inds := s.inds.set i q.2 }
    | none => s
  | .write i w =>
    match s.ref i with
    | some r => { s with heap := Arrays.write s.heap r w }
    | none => s
  | .join i =>
    match s.ref i with
    | some r => { s.add r with members := s.members ++ [i] }
    | none => s
  | .replace k i =>
    match s.ref i with
    | some r => { s.add r with members := s.members.set k i }
    | none => s
  | .note i =>
    match s.ref i with
    | some r => s.add r
    | none => s

/-- Operations one after the other. -/
def run (c : Challenge.Config) (s : St) (ops : List Op) : St := ops.foldl (step c) s

/-- `i.update(j.values)` (ade/individual.py:252-266), the values being those of individual `j`. -/
def updateFrom (c : Challenge.Config) (s : St) (i j : ℕ) : St :=
  match s.ref j with
  | some r =>
    match update c.bounds.length s.heap (.arr r) with
    | some q => { s with heap := q.1, inds := s.inds.set i q.2 }
    | none => s
  | none => s

/-- Nothing made yet. -/
def start : St := ⟨[], [], [], []⟩

end Arrays
end Ade
