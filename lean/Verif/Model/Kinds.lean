import Verif.Model.Challenge
import Verif.Model.Ieee754

/-!
# Whole numbers and floats as values of an individual

The other modules take the values of an individual as numbers.  They are a numpy array, and every array has a kind: an array made of
a list of nothing but whole numbers is one of 64-bit integers, and stays one.  This module models the kinds, with the operations of
`Individual`, the crossover and the limiting.

External contract (numpy): the kind of `np.array` of a list, arithmetic and `np.where`, `np.clip` with arrays of both kinds (the
result is an array of integers only if both are), assignment of a float to an item of an array of integers (cut off towards zero).
Simplifications: integers are unbounded and floats are exact rationals; NaN and infinite values are left out.
-/

set_option autoImplicit false

namespace Ade
namespace Kinds

/-- A number as given by the user or read from an array: `1` or `1.0`. -/
inductive Num where
  | int (n : ℤ)
  | flt (x : ℚ)
  deriving DecidableEq

/-- The value of a number. -/
def Num.val : Num → ℚ
  | .int n => n
  | .flt x => x

/-- Whether the number is a whole number by its kind (`isinstance(x, int)`). -/
def Num.isInt : Num → Bool
  | .int _ => true
  | .flt _ => false

/-- A numpy array of 64-bit integers or of doubles. -/
inductive Arr where
  | ints (l : List ℤ)
  | flts (l : List ℚ)
  deriving DecidableEq

/-- The values in an array. -/
def Arr.vals : Arr → List ℚ
  | .ints l => l.map (Int.cast : ℤ → ℚ)
  | .flts l => l

/-- Whether it is an array of integers. -/
def Arr.isInt : Arr → Bool
  | .ints _ => true
  | .flts _ => false

/-- The items of an array, as in `list(self.values)` (ade/individual.py:142). -/
def Arr.items : Arr → List Num
  | .ints l => l.map .int
  | .flts l => l.map .flt

/-- A float cut off towards zero. -/
def cut (x : ℚ) : ℤ := if 0 ≤ x then ⌊x⌋ else ⌈x⌉

/-- The whole number that a number is made when it is stored in an array of integers. -/
def Num.toInt : Num → ℤ
  | .int n => n
  | .flt x => cut x

/-- `np.array(values)` of a list or tuple (ade/individual.py:264-265). -/
def ofList (l : List Num) : Arr :=
  if l ≠ [] ∧ l.all Num.isInt then .ints (l.map Num.toInt) else .flts (l.map Num.val)

/-- `update` of a list or tuple, also by the constructor and `spawn` (ade/individual.py:68-75, 130-135, 252-266); `none` is the
`ValueError`. -/
def update (Nd : ℕ) (l : List Num) : Option Arr := if l.length ≠ Nd then none else some (ofList l)

/-- The values of a `copy` (ade/individual.py:137-144). -/
def copy (a : Arr) : Arr := ofList a.items

/-- `__setitem__` (ade/individual.py:162-166), for an index that exists. -/
def setItem (a : Arr) (k : ℕ) (x : Num) : Arr :=
  match a with
  | .ints l => .ints (l.set k x.toInt)
  | .flts l => .flts (l.set k x.val)

/-- `__getitem__` (ade/individual.py:153-160) with a number as index. -/
def getItem (a : Arr) (k : ℕ) : Option Num := a.items[k]?

/-- Arithmetic on arrays: the result is one of integers only if both are. -/
def ap (fi : ℤ → ℤ → ℤ) (fq : ℚ → ℚ → ℚ) : Arr → Arr → Arr
  | .ints l, .ints m => .ints (List.zipWith fi l m)
  | a, b => .flts (List.zipWith fq a.vals b.vals)

/-- `__sub__` (ade/individual.py:224-229). -/
def sub : Arr → Arr → Arr := ap (· - ·) (· - ·)

/-- `__add__` (ade/individual.py:231-236). -/
def add : Arr → Arr → Arr := ap (· + ·) (· + ·)

/-- `__mul__` (ade/individual.py:238-242). -/
def mul : Arr → Num → Arr
  | .ints l, .int n => .ints (l.map (· * n))
  | a, x => .flts (a.vals.map (· * x.val))

/-- `crossover(parent, mutant)` (ade/de.py:444-462). -/
def crossover (CR : ℚ) (Nd j : ℕ) (u : ℕ → ℚ) (parent mutant : Arr) : Arr :=
  (List.range Nd).foldl (fun m k =>
    if k = j then m
    else if CR < u k then setItem m k ((getItem parent k).getD (.flt default))
    else m) mutant

/-- `ParameterManager.limit` (ade/population.py:249-251), with the arrays of lower and upper bounds (ade/population.py:93-94). -/
def limit (mins maxs a : Arr) : Arr :=
  let a := ap (fun lo v => if v < lo then 2 * lo - v else v) (fun lo v => if v < lo then 2 * lo - v else v) mins a
  let a := ap (fun hi v => if v > hi then 2 * hi - v else v) (fun hi v => if v > hi then 2 * hi - v else v) maxs a
  ap (fun hi v => min v hi) (fun hi v => min v hi) maxs (ap (fun lo v => max v lo) (fun lo v => max v lo) mins a)

/-- The donor (ade/de.py:532); `F` is what `fm.get()` returns, a single `F` as given by the user (ade/de.py:93, 143-156). -/
def donor (F : Num) (b i0 i1 : Arr) : Arr := add b (mul (sub i0 i1) F)

/-- The challenger's values (ade/de.py:532-535). -/
def challenger (mins maxs : Arr) (CR : ℚ) (Nd j : ℕ) (u : ℕ → ℚ) (F : Num) (t b i0 i1 : Arr) : Arr :=
  limit mins maxs (crossover CR Nd j u t (donor F b i0 i1))

/-- An individual with an array of either kind, as seen by `__hash__` and `__eq__`: 64-bit integers, or the bytes of doubles. -/
inductive Stored where
  | ints (l : List ℤ)
  | dbls (l : List Double)

/-- The eight bytes of a 64-bit integer, the least significant one first. -/
def intBytes (n : ℤ) : Double := fun i => ⟨(n % 2 ^ 64).toNat / 256 ^ i.val % 256, Nat.mod_lt _ (by norm_num)⟩

/-- `np.array(self.values).tobytes()` (ade/individual.py:191). -/
def Stored.bytes : Stored → List Byte
  | .ints l => (l.map fun n => List.ofFn (intBytes n)).flatten
  | .dbls l => (l.map fun v => List.ofFn v).flatten

/-- The values as numbers. -/
def Stored.numbers : Stored → List PyFloat
  | .ints l => l.map fun n : ℤ => .fin (n : ℚ)
  | .dbls l => l.map Ieee754.double

/-- The bytes hashed by `__hash__` (ade/individual.py:189-191), for the score's bytes; `none` if packing overflows. -/
def key (sse : Double) (v : Stored) : Option (List Byte) := (Ieee754.pack sse).map fun s => List.ofFn s ++ v.bytes

/-- `equals` (ade/individual.py:200-210) for arrays of equal length. -/
def equals (v w : Stored) : Bool := (v.numbers.zip w.numbers).all fun p => p.1.eq p.2

end Kinds
end Ade
