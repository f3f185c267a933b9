import Verif.Model.History

/-!
# Selecting and addressing history records

Model of parts of `ade/history.py`, class `Analysis`: which records a query selects, the mapping of
parameter names to columns, and the names of plot files.  Plotting is not modelled; for
correlation and line fitting see `Correlation.lean` and `LineFit.lean`.
-/

set_option autoImplicit false

namespace Ade
namespace Analysis

/-- The membership keywords of `value_vs_SSE` (ade/history.py:211-219); `inPop` takes precedence over
`notInPop` and that over `neverInPop`, so a query has one of these modes. -/
inductive Mode where
  | all
  | inPop
  | former
  | never
  deriving DecidableEq

/-- The mode resulting from the keywords (ade/history.py:230-236). -/
def modeOf (inPop notInPop neverInPop : Bool) : Mode :=
  if inPop then .inPop else if notInPop then .former else if neverInPop then .never else .all

/-- The rows selected by membership (ade/history.py:230-236). -/
def selectRows (K : List Nat) (Kp Kn : Finset Nat) : Mode → List Nat
  | .inPop => K.filter fun k => decide (k ∈ Kp)
  | .former => K.filter fun k => decide (k ∉ Kp) && decide (k ∉ Kn)
  | .never => K.filter fun k => decide (k ∈ Kn)
  | .all => K

/-- `x/SSE_best <= maxRatio` with numpy division (ade/history.py:237), for finite non-negative scores:
`0/0` is NaN and `x/0` infinite, so with a best score of zero the comparison is false. -/
def withinRatio (best x maxRatio : ℚ) : Bool :=
  if best = 0 then false else decide (x / best ≤ maxRatio)

/-- The rows used by `value_vs_SSE` (ade/history.py:203-240) with scores `sse`; `none` is the
`IndexError` for an empty history. -/
def queryRows (sse : Nat → ℚ) (K : List Nat) (Kp Kn : Finset Nat) (m : Mode) (maxRatio : ℚ) :
    Option (List Nat) :=
  match K with
  | [] => none
  | k0 :: ks => some ((selectRows (k0 :: ks) Kp Kn m).filter fun k => withinRatio (sse k0) (sse k) maxRatio)

/-- `name2k` (ade/history.py:189-194); `none` is the `ValueError` of `list.index`. -/
def name2k (names : List String) (name : String) : Option Nat :=
  if name ∈ names then some (names.idxOf name + 1) else none

/-- `k2name` (ade/history.py:196-201), for a column index `k ≥ 1`; `none` is the `IndexError`.  (Column 0 is
the score; Python's `names[-1]` for it is not modelled.) -/
def k2name (names : List String) : Nat → Option String
  | 0 => none
  | k + 1 => names[k]?

/-- A plot file specification (ade/history.py:291-327): directory part, base name, extension, count. -/
structure FileSpec where
  base : List Char
  ext : List Char
  count : Nat

/-- The decimal digits written by `"{:d}"`. -/
def digits (n : Nat) : List Char := Nat.toDigits 10 n

/-- The file name produced by `filePath()` (ade/history.py:316-322) and the new specification. -/
def nextName (s : FileSpec) : List Char × FileSpec :=
  let count := s.count + 1
  (if count > 1 then s.base ++ '-' :: digits count ++ '.' :: s.ext else s.base ++ '.' :: s.ext,
    { s with count := count })

/-- The first `n` file names produced after setting the base file path. -/
def names : Nat → FileSpec → List (List Char)
  | 0, _ => []
  | n + 1, s => (nextName s).1 :: names n (nextName s).2

/-- `Kp12` (ade/history.py:158-169): the slice of the records from portion `p1` to `p2`. -/
def portion (K : List Nat) (p1 p2 : ℚ) : List Nat :=
  (K.take ((p2 * K.length).floor.toNat + 1)).drop (p1 * K.length).floor.toNat

end Analysis
end Ade
