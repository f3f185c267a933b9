import Verif.Model.Specs
import Verif.Model.Reporter
import Mathlib.Data.Int.Log

/-!
# Printed numbers

Model of what Python's `str.format` makes of a number with `{:.4f}` (ade/individual.py:99), `{:g}` and `{:.5g}`
(ade/population.py:127, 643-647), that is of `float.__format__` for the types `f` and `g`.

External contract: floats are printed as the correctly rounded decimal fraction of their exact value, halves to even; the
number is given by that exact value, a rational number.
-/

set_option autoImplicit false

namespace Ade
namespace Format

open Specs (Str)
open Reporter (roundHalfEven)

/-- The character of a decimal digit. -/
def digit (d : ℕ) : Char := Char.ofNat (48 + d)

/-- The last `w` decimal digits of `n`. -/
def pad : ℕ → ℕ → Str
  | 0, _ => []
  | w + 1, n => pad w (n / 10) ++ [digit (n % 10)]

/-- All decimal digits of `n`. -/
def decimal (n : ℕ) : Str := pad (Nat.log 10 n + 1) n

/-- The sign. -/
def sign (q : ℚ) : Str := if q < 0 then ['-'] else []

/-- `{:.df}`, for `d > 0`. -/
def fixed (d : ℕ) (q : ℚ) : Str :=
  let n := roundHalfEven (|q| * 10 ^ d)
  sign q ++ (decimal (n / 10 ^ d) ++ '.' :: pad d (n % 10 ^ d))

/-- The digits without trailing zeros. -/
def strip0 (s : Str) : Str := (s.reverse.dropWhile (· = '0')).reverse

/-- The decimal point and `d` digits of a fraction without trailing zeros; nothing if it is zero. -/
def fraction (d n : ℕ) : Str :=
  let s := strip0 (pad d n)
  if s = [] then [] else '.' :: s

/-- The digits of a positive number rounded to `P` significant ones, as an integer, and the exponent of the first. -/
def significand (P : ℕ) (a : ℚ) : ℕ × ℤ :=
  let X := Int.log 10 a
  let m := roundHalfEven (a / 10 ^ (X - (P - 1 : ℕ)))
  if m = 10 ^ P then (10 ^ (P - 1), X + 1) else (m, X)

/-- The exponent: its sign and at least two digits. -/
def expo (X : ℤ) : Str := 'e' :: (if X < 0 then '-' else '+') :: pad (max 2 (Nat.log 10 X.natAbs + 1)) X.natAbs

/-- `{:.Pg}`, for `P > 0`; `{:g}` is `{:.6g}`. -/
def general (P : ℕ) (q : ℚ) : Str :=
  if q = 0 then ['0']
  else
    let (m, X) := significand P |q|
    if -4 ≤ X ∧ X < P then
      let d := ((P - 1 : ℕ) - X).toNat
      sign q ++ (decimal (m / 10 ^ d) ++ fraction d (m % 10 ^ d))
    else sign q ++ (decimal (m / 10 ^ (P - 1)) ++ (fraction (P - 1) (m % 10 ^ (P - 1)) ++ expo X))

end Format
end Ade
