import Verif.Model.Single

/-!
# The Goldstein-Price function as the program computes it

`gp` of `ade/examples/goldstein-price.c` has arguments, variables and results of type `float`.  `Verif/Model/Voc.lean` has the
function in exact arithmetic; here every operation is rounded to single precision.

External contract: the operations of C are carried out in the order written, each one rounded to a float32 as IEEE 754 says
(`FLT_EVAL_METHOD` 0, no contraction of a product and a sum into one operation, which is what compilers do for x86-64
unless told otherwise).

Simplification: no overflow, which cannot occur for arguments within the bounds of the example (ade/examples/goldstein-price.py:250).
-/

set_option autoImplicit false

namespace Ade
namespace GpSingle

/-- The float32 nearest to a number. -/
def rnd (q : ℚ) : ℚ := if q < 0 then -Single.mag |q| else Single.mag |q|

/-- Sum, difference and product of C for the type `float`. -/
def add (a b : ℚ) : ℚ := rnd (a + b)
def sub (a b : ℚ) : ℚ := rnd (a - b)
def mul (a b : ℚ) : ℚ := rnd (a * b)

/-- `19 - 14*x + 3*x*x - 14*y + 6*x*y + 3*y*y` (ade/examples/goldstein-price.c:30). -/
def poly1 (x y : ℚ) : ℚ :=
  add (add (sub (add (sub 19 (mul 14 x)) (mul (mul 3 x) x)) (mul 14 y)) (mul (mul 6 x) y)) (mul (mul 3 y) y)

/-- `18 - 32*x + 12*x*x + 48*y - 36*x*y + 27*y*y` (ade/examples/goldstein-price.c:35). -/
def poly2 (x y : ℚ) : ℚ :=
  add (sub (add (add (sub 18 (mul 32 x)) (mul (mul 12 x) x)) (mul 48 y)) (mul (mul 36 x) y)) (mul (mul 27 y) y)

/-- `gp` (ade/examples/goldstein-price.c:25-39), statement by statement. -/
def gp (x y : ℚ) : ℚ :=
  let z := add (add x y) 1
  let z := mul z z
  let z := mul z (poly1 x y)
  let z := add z 1
  let result := z
  let z := sub (mul 2 x) (mul 3 y)
  let z := mul z z
  let z := mul z (poly2 x y)
  let z := add z 30
  let result := mul result z
  result

end GpSingle
end Ade
