import Verif.Model.Constraints

/-!
# Which constraints are in force

Model of how constraints reach the check of a population: the ways to give them to the constructor (ade/population.py:78-86,
402-418), `setConstraints` (ade/population.py:194-213, 858-875), and what the caller does afterwards with the lists and
`Constraints` objects (ade/constraints.py:92-162) that were given.  Objects are kept by reference, as in Python: a list, a
container or a generator has a number, and several populations may hold the same one.

Left out: constraints that raise, that change a list while it is being iterated over, or that give themselves to another
population while they are called.
-/

set_option autoImplicit false

namespace Ade
namespace ConstraintSets

open ParamManager (Dict Obj setConstraints)
open Constraints (Registered passesLazy)

/-- A `Constraints` object: `cList` and `fList` (ade/constraints.py:95-100). -/
structure Cont where
  cList : List Registered
  fList : List (Dict → Bool)

/-- `Constraints.__init__` (ade/constraints.py:92-100), given the functions that an overridden `setup` appends and the
registry (`none` if neither the subclass nor a keyword defines one).  `none` is the AttributeError: of `append` in `setup`,
because `fList` is set after it, or of `self.registry`. -/
def Cont.init (inSetup : List (Dict → Bool)) (registry : Option (List Registered)) : Option Cont :=
  match inSetup with
  | _ :: _ => none
  | [] => registry.map fun cs => { cList := cs, fList := [] }

/-- `append` (ade/constraints.py:161-162). -/
def Cont.append (c : Cont) (f : Dict → Bool) : Cont := { c with fList := c.fList ++ [f] }

/-- `__len__` (ade/constraints.py:109-110). -/
def Cont.len (c : Cont) : ℕ := c.cList.length + c.fList.length

/-- `__bool__` (ade/constraints.py:112-113). -/
def Cont.bool (c : Cont) : Bool := !c.cList.isEmpty || !c.fList.isEmpty

/-- What the attribute `constraints` of a parameter manager refers to: a list of its own, a list that the caller made, a
container, or a generator. -/
inductive Source where
  | own (fs : List (Dict → Bool))
  | list (k : ℕ)
  | cont (k : ℕ)
  | gen (k : ℕ)

/-- The objects: lists, containers, what generators have yet to yield, and the populations. List 0 is the default value
`[]` of the keyword `constraints` of `Population.__init__` (ade/population.py:402), one object for all populations. -/
structure World where
  lists : ℕ → List (Dict → Bool)
  conts : ℕ → Cont
  gens : ℕ → List (Dict → Bool)
  pops : ℕ → Source

/-- What is given to the constructor as `constraints`. -/
inductive Given where
  | nothing
  | function (f : Dict → Bool)
  | list (k : ℕ)
  | cont (k : ℕ)
  | gen (k : ℕ)

/-- What is done, one thing after the other. -/
inductive Event where
  /-- `Population(…, constraints=…)` -/
  | construct (m : ℕ) (g : Given)
  /-- `p.setConstraints(*args)` -/
  | set (m : ℕ) (args : List Obj)
  /-- the caller appends to a list that they made -/
  | listAppend (k : ℕ) (f : Dict → Bool)
  /-- the caller appends to a container -/
  | contAppend (k : ℕ) (f : Dict → Bool)
  /-- `p.pm.constraints.append(f)` -/
  | attrAppend (m : ℕ) (f : Dict → Bool)
  /-- `p.pm.passesConstraints(values)` with these parameters -/
  | check (m : ℕ) (params : Dict)

/-- `self.constraints = [constraints] if notseq(constraints) else constraints` (ade/population.py:85-86, with the default of
402): whatever has an `__iter__` is kept as it is. -/
def sourceOf : Given → Source
  | .nothing => .list 0
  | .function f => .own [f]
  | .list k => .list k
  | .cont k => .cont k
  | .gen k => .gen k

/-- The loop of `passesConstraints` (ade/population.py:230-234) over a generator: the verdict and what is left in it. -/
def consume (params : Dict) : List (Dict → Bool) → Bool × List (Dict → Bool)
  | [] => (true, [])
  | f :: fs => if f params then consume params fs else (false, fs)

/-- The loop over a list. -/
def passesList (params : Dict) : List (Dict → Bool) → Bool
  | [] => true
  | f :: fs => if f params then passesList params fs else false

/-- `passesConstraints` (ade/population.py:226-234): the verdict. An empty list or container is false, so that everything
passes; a generator is always true. -/
def verdict (pow10 : ℚ → ℚ) (w : World) (m : ℕ) (params : Dict) : Bool :=
  match w.pops m with
  | .own fs => if fs.isEmpty then true else passesList params fs
  | .list k => if (w.lists k).isEmpty then true else passesList params (w.lists k)
  | .cont k => if (w.conts k).bool then passesLazy pow10 params (w.conts k).cList (w.conts k).fList Dict.empty else true
  | .gen k => (consume params (w.gens k)).1

/-- Replace the value at one number. -/
def put {α : Type} (g : ℕ → α) (k : ℕ) (a : α) : ℕ → α := fun j => if j = k then a else g j

/-- What one event does to the objects. -/
def step (w : World) : Event → World
  | .construct m g => { w with pops := put w.pops m (sourceOf g) }
  | .set m args =>
    match setConstraints args with
    | .ok fs => { w with pops := put w.pops m (.own fs) }
    | .error _ => w
  | .listAppend k f => { w with lists := put w.lists k (w.lists k ++ [f]) }
  | .contAppend k f => { w with conts := put w.conts k ((w.conts k).append f) }
  | .attrAppend m f =>
    match w.pops m with
    | .own fs => { w with pops := put w.pops m (.own (fs ++ [f])) }
    | .list k => { w with lists := put w.lists k (w.lists k ++ [f]) }
    | .cont k => { w with conts := put w.conts k ((w.conts k).append f) }
    | .gen _ => w -- AttributeError
  | .check m params =>
    match w.pops m with
    | .gen k => { w with gens := put w.gens k (consume params (w.gens k)).2 }
    | _ => w

/-- What a sequence of events does to the objects. -/
def run (w : World) (evs : List Event) : World := evs.foldl step w

/-- Parameter names in a registry: `None`, a set, or another collection such as a list. -/
inductive Names where
  | none
  | set (ns : List String)
  | other (ns : List String)

/-- `if names: if not names.issubset(params): return True` (ade/constraints.py:135-137, 141-143): `none` is the
AttributeError of a list or tuple, which has no `issubset`; otherwise whether to go on. -/
def Names.present (params : Dict) : Names → Option Bool
  | .none => some true
  | .set ns => some (Constraints.subset ns params)
  | .other [] => some true
  | .other (_ :: _) => Option.none

/-- The names, however they are collected. -/
def Names.toList : Names → List String
  | .none => []
  | .set ns => ns
  | .other ns => ns

/-- The first wrapper of an iteration, called with the parameters (ade/constraints.py:134-150): `none` is the AttributeError. -/
def firstWrapper (pow10 : ℚ → ℚ) (func : Dict → Bool) (linear log : Names) (params : Dict) : Option Bool :=
  (linear.present params).bind fun go =>
    if go then
      (log.present params).map fun go =>
        if go then func (Constraints.fill params pow10 log.toList (Constraints.fill params id linear.toList Dict.empty))
        else true
    else some true

end ConstraintSets
end Ade
