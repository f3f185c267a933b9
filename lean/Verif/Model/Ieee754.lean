import Verif.Model.IdentityKey
import Verif.Model.Single
import Mathlib.Data.Nat.Digits.Defs

/-!
# Floating point numbers as bytes

The binary formats of IEEE 754 for the bytes that `Individual.__hash__` (ade/individual.py:189-191) works with, least significant
byte first: the number that eight or four bytes stand for, and the conversion made by `struct.pack('<f', x)`.

Simplifications: a machine that keeps the most significant byte of an array of doubles last.  Which NaN a NaN is converted to
depends on the machine; here it keeps its sign and its leading bits, made quiet.
-/

set_option autoImplicit false

namespace Ade
namespace Ieee754

/-- The number made of the bytes, the least significant one first. -/
def word {n : ℕ} (x : Fin n → Byte) : ℕ := Nat.ofDigits 256 ((List.ofFn x).map Fin.val)

/-- The four bytes of a number below `2^32`. -/
def bytes4 (w : ℕ) : Ade.Single := fun i => ⟨w / 256 ^ i.val % 256, Nat.mod_lt _ (by norm_num)⟩

/-- The magnitude with exponent and fraction `k`, for `p` bits of fraction and least exponent `low`. -/
def magnitude (p : ℕ) (low : ℤ) (k : ℕ) : ℚ :=
  if k / 2 ^ p = 0 then (k % 2 ^ p : ℕ) * 2 ^ low
  else (2 ^ p + k % 2 ^ p : ℕ) * 2 ^ (low + (k / 2 ^ p : ℕ) - 1)

/-- The number that a word of 1 bit for the sign, `w` for the exponent and `p` for the fraction stands for. -/
def value (p w : ℕ) (low : ℤ) (n : ℕ) : PyFloat :=
  let k := n % 2 ^ (p + w)
  let neg := n / 2 ^ (p + w) = 1
  if k / 2 ^ p = 2 ^ w - 1 then
    if k % 2 ^ p = 0 then (if neg then .ninf else .pinf) else .nan
  else .fin (if neg then -magnitude p low k else magnitude p low k)

/-- The number that eight bytes stand for. -/
def double (x : Double) : PyFloat := value 52 11 (-1074) (word x)

/-- The number that four bytes stand for. -/
def single (x : Ade.Single) : PyFloat := value 23 8 (-149) (word x)

/-- Exponent and fraction of a float32 that is not negative. -/
def singleWord (a : ℚ) : ℕ :=
  if a = 0 then 0 else ((Single.lastPlace a + 149) * 2 ^ 23).toNat + ⌊a / 2 ^ Single.lastPlace a⌋₊

/-- `struct.pack('<f', x)` (ade/individual.py:190); `none` is the OverflowError for a number that is too large. -/
def pack (x : Double) : Option Ade.Single :=
  let s := word x / 2 ^ 63 * 2 ^ 31
  match double x with
  | .nan => some (bytes4 (s + (2 ^ 31 - 2 ^ 22) + word x % 2 ^ 51 / 2 ^ 29))
  | .fin q =>
    match Single.toSingle (.fin q) with
    | .fin y => some (bytes4 (s + singleWord |y|))
    | _ => none
  | _ => some (bytes4 (s + (2 ^ 31 - 2 ^ 23)))

/-- The conversion and the comparison by value. -/
def ieee : Ieee := ⟨pack, fun x y => (double x).eq (double y)⟩

end Ieee754
end Ade
