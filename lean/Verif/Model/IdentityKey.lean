import Mathlib.Data.List.Basic

/-!
# The identity key of an individual

Model of `Individual.__hash__` (ade/individual.py:189-191) at the level of bytes, where `0.0` and `-0.0`
are different.  A double is its eight bytes, a single its four bytes.
-/

set_option autoImplicit false

namespace Ade

abbrev Byte := Fin 256

/-- A float64 as stored: its 8 bytes. -/
abbrev Double := Fin 8 → Byte

/-- A float32 as stored: its 4 bytes. -/
abbrev Single := Fin 4 → Byte

/-- What is needed to know about IEEE arithmetic: the conversion done by `struct.pack('<f', x)`
(`none` is the `OverflowError`), and the numeric comparison `x == y`. -/
structure Ieee where
  toSingle : Double → Option Single
  numEq : Double → Double → Bool

/-- An individual as seen by `__hash__` and `__eq__`: the score its `SSE` property returns and its
parameter values. -/
structure RawIndividual where
  sse : Double
  values : List Double

/-- The bytes hashed by `__hash__` (ade/individual.py:190-191): packed score, then the bytes of all
values.  `none` if packing overflows. -/
def identityKey (f : Ieee) (i : RawIndividual) : Option (List Byte) :=
  match f.toSingle i.sse with
  | none => none
  | some s => some (List.ofFn s ++ (i.values.map fun v => List.ofFn v).flatten)

/-- `__hash__` (ade/individual.py:189-191), with the (per process) hash function of `bytes`. -/
def pyHash (f : Ieee) (h : List Byte → Int) (i : RawIndividual) : Option Int :=
  (identityKey f i).map h

/-- `__eq__` (ade/individual.py:193-210) for value arrays of equal length. -/
def rawEq (f : Ieee) (i j : RawIndividual) : Bool :=
  f.numEq i.sse j.sse && (i.values.zip j.values).all fun p => f.numEq p.1 p.2

end Ade
