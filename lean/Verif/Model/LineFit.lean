import Verif.Model.Figures

/-!
# The fitted line

Model of `Analysis.lineFit` (ade/history.py:242-256), of the line of `plotXY` (ade/history.py:468-470) and of `prettyLine`
(ade/history.py:445-446).

External contract: `numpy.polynomial.polynomial.polyfit(x, y, 1, w=w)` gives the coefficients for which the sum of
`(w * (y - b - m*x))**2` is least; they are computed here from the normal equations, in exact arithmetic.  Without two
different values of `x` there is no such single line (numpy warns and takes one of them), which is `none` here, as is a
weight that is NaN.
-/

set_option autoImplicit false

namespace Ade
namespace LineFit

/-- A selected record: its score and the values in columns `k1` and `k2`. -/
structure Rec where
  sse : ℚ
  x : ℚ
  y : ℚ
  deriving DecidableEq

/-- A point with the weight of its squared residual. -/
structure Pt where
  w : ℚ
  x : ℚ
  y : ℚ

/-- A sum over points. -/
def total (f : Pt → ℚ) (ps : List Pt) : ℚ := (ps.map f).sum

/-- `poly.polyfit(x, y, 1, w=w)` (ade/history.py:255): slope and intercept by the normal equations. -/
def polyfit (ps : List Pt) : Option (ℚ × ℚ) :=
  let s0 := total (fun p => p.w) ps
  let sx := total (fun p => p.w * p.x) ps
  let sy := total (fun p => p.w * p.y) ps
  let sxx := total (fun p => p.w * p.x ^ 2) ps
  let sxy := total (fun p => p.w * p.x * p.y) ps
  let d := s0 * sxx - sx ^ 2
  if d = 0 then none else some ((s0 * sxy - sx * sy) / d, (sxx * sy - sx * sxy) / d)

/-- `SSE.min()` (ade/history.py:253); `none` is the ValueError without records. -/
def minScore : List Rec → Option ℚ
  | [] => none
  | r :: rs => some (rs.foldl (fun m r => min m r.sse) r.sse)

/-- The points with their weights (ade/history.py:252-255); the residuals are multiplied by the weights before they are
squared. -/
def weighted (best : ℚ) (rs : List Rec) : Option (List Pt) :=
  rs.mapM fun r => (Figures.weight best r.sse).map fun w => ⟨w ^ 2, r.x, r.y⟩

/-- `lineFit` (ade/history.py:242-256): slope and intercept. -/
def lineFit (rs : List Rec) : Option (ℚ × ℚ) :=
  (minScore rs).bind fun best => (weighted best rs).bind polyfit

/-- The records whose line `plotXY` draws (ade/history.py:468-469): the better half, in columns `k1` and `k2` of `X`. -/
def plotRecs (X : ℕ → ℕ → ℚ) (K : List ℕ) (k1 k2 : ℕ) : List Rec :=
  (Analysis.portion K 0 (1 / 2)).map fun k => ⟨X k 0, X k k1, X k k2⟩

/-- The slope and intercept that `plotXY` returns (ade/history.py:469, 483). -/
def plotLine (X : ℕ → ℕ → ℚ) (K : List ℕ) (k1 k2 : ℕ) : Option (ℚ × ℚ) := lineFit (plotRecs X K k1 k2)

/-- `prettyLine` (ade/history.py:445-446), with `plus` for the format `{:+.6g}` and `plain` for `{:.6g}`. -/
def prettyLine (plus plain : ℚ → List Char) (m b : ℚ) : List Char :=
  "Y=".toList ++ plus m ++ "*X ".toList ++ (if b < 0 then ['-'] else ['+']) ++ [' '] ++ plain |b|

end LineFit
end Ade
