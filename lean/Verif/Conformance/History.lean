import Verif.Model.Analysis
import Verif.Model.Correlation
import Verif.Model.Difference
import Verif.Model.Figures

/-!
# The tests of `ade/test/test_history.py`, on the model

These are tests of the model, not proofs: every example repeats a test of the repository with the same
inputs and the results expected there. They count for no property. All numbers involved are exact in the
32-bit format of the history's array, so storing them changes nothing.
-/

set_option autoImplicit false

namespace Ade
namespace History
namespace Conformance
open Analysis

/-! ## `Test_Analysis` -/

/-- The array `X` of the tests (test_history.py:41-47). -/
def table : ℕ → ℕ → ℚ := fun r c =>
  (([[110, 1, 2, 5], [810, 2, 3, 4], [270, 3, 4, 3], [580, 4, 5, 2], [999, 5, 6, 1]] : List (List ℚ)).getD r []).getD c 0

/-- The order of the records (test_history.py:48). -/
def order : List ℕ := [0, 3, 2, 1, 4]

/-- test_history.py:52-55, `test_name2k_k2name`. -/
example : ["foo", "bar", "zebra"].map (name2k ["foo", "bar", "zebra"]) = [some 1, some 2, some 3] ∧
    [1, 2, 3].map (k2name ["foo", "bar", "zebra"]) = [some "foo", some "bar", some "zebra"] := by decide +kernel

/-- test_history.py:57-61, `test_valueVsSSE`; there is no limit for the ratio in the test, 1000 is beyond all of them. -/
example : (queryRows (table · 0) order ∅ ∅ .all 1000).map (fun K => K.map (table · 0)) =
      some [110, 580, 270, 810, 999] ∧
    (queryRows (table · 0) order ∅ ∅ .all 1000).map (fun K => K.map (table · 2)) = some [2, 5, 4, 3, 6] := by
  decide +kernel

/-- test_history.py:63-65, `test_corr`. -/
example : Correlation.corr (table · 1) (table · 2) order = some 1 ∧
    Correlation.corr (table · 1) (table · 3) order = some (-1) := by decide +kernel

/-- test_history.py:67-80, `test_Kf12`. -/
example : Figures.fraction (table · 0) order 0 1 = [0, 3, 2, 1] ∧
    Figures.fraction (table · 0) order 0 (6 / 10) = [0, 3, 2] ∧
    Figures.fraction (table · 0) order (6 / 10) (101 / 100) = [1, 4] ∧
    Figures.fraction (table · 0) order 0 (3 / 10) = [0, 2] ∧
    Figures.fraction (table · 0) order (3 / 10) (101 / 100) = [3, 1, 4] := by decide +kernel

/-- test_history.py:82-88, `test_Kp12`. -/
example : portion order 0 (5 / 10) = [0, 3, 2] ∧ portion order (2 / 10) (7 / 10) = [3, 2, 1] ∧
    portion order (5 / 10) (101 / 100) = [2, 1, 4] := by decide +kernel

/-! ## `Test_ClosestPairFinder` -/

open ClosestPair

/-- A row of four numbers. -/
def row4 (l : List ℚ) : Fin 4 → PyFloat := fun c => .fin (l.getD c.val 0)

/-- Setting one row after the other, from row 0 on; with each row, whether it was never in the population. -/
def setRows (f : Store 3) (rows : List (List ℚ × Bool)) : Store 3 :=
  rows.zipIdx.foldl (fun f r => (f.setRow r.2 (row4 r.1.1) r.1.2).1) f

/-- The finder of the tests. -/
def finder : Store 3 := Store.new fun _ _ => 7

/-- The finder of `test_setRow`. -/
def tenRows : Store 3 := setRows { finder with S := some fun _ => 1 }
  ((List.range 10).map fun (k : ℕ) => ([10 + (k : ℚ), (k : ℚ), (k : ℚ) + 1, (k : ℚ) + 2], false))

/-- test_history.py:95-101, `test_setRow`: the scaling is forgotten, and the row is there. -/
example : tenRows.S.isNone = true ∧ (List.finRange 4).map (tenRows.X 0) = [10, 0, 1, 2] := by decide +kernel

/-- test_history.py:103-108, `test_clearRow`. -/
example : let f := { setRows finder [([100, 2, 3, 4], false)] with S := some fun _ => 1 }
    (f.clearRow 0).S.isNone = true ∧ (f.clearRow 0).K.card = 0 := by decide +kernel

/-- test_history.py:122-133, `test_pairs_all`. -/
example : (pairsAll [3, 1, 4, 5, 9, 2]).length = 6 * 5 / 2 ∧
    (pairsAll [3, 1, 4, 5, 9, 2]).all (fun p => p.1 < p.2 && 0 < p.1 && p.2 < 10) = true := by decide +kernel

/-- Two rationals differ by at most the given part of the second. -/
def within (d : ℚ) (x : PyFloat) (y : ℚ) : Bool :=
  match x with
  | .fin x => |x - y| ≤ d * y
  | _ => false

/-- The rows of `test_diffs`. -/
def diffRows : Store 3 := setRows finder
  [([90, 11 / 100, 2 / 10, 3 / 10], false), ([90, 9 / 100, 2 / 10, 3 / 10], false),
    ([100, 9 / 100, 2 / 10, 3 / 10], false), ([110, 11 / 100, 2 / 10, 3 / 10], false),
    ([110, 10 / 100, 2 / 10, 3 / 10], false)]

/-- The difference of a pair of rows in `test_diffs`. -/
def diffOf (p : ℕ × ℕ) : PyFloat := difference diffRows.X (scaling diffRows.X [0, 1, 2, 3, 4]) diffRows.Kn 1 p

/-- test_history.py:136-160, `test_diffs`. -/
example :
    let s0 : ℚ := 1 / var [90, 90, 100, 110, 110]
    let s1 : ℚ := 1 / var [11 / 100, 9 / 100, 9 / 100, 11 / 100, 10 / 100]
    within (1 / 100) (diffOf (0, 1)) (s1 * (2 / 100) ^ 2 / 90) = true ∧
    within (1 / 100) (diffOf (0, 2)) ((s0 * 10 ^ 2 + s1 * (2 / 100) ^ 2) / 95) = true ∧
    within (1 / 100) (diffOf (0, 3)) (s0 * 20 ^ 2 / 100) = true ∧
    within (1 / 100) (diffOf (2, 3)) ((s0 * 10 ^ 2 + s1 * (2 / 100) ^ 2) / 105) = true ∧
    within (1 / 100) (diffOf (3, 4)) (s1 * (1 / 100) ^ 2 / 110) = true := by decide +kernel

/-- The rows of `test_diffs_someNeverpops`. -/
def neverRows : Store 3 := setRows finder
  [([100, 1130 / 10000, 10 / 100, 100 / 1000], true), ([100, 1010 / 10000, 11 / 100, 100 / 1000], true),
    ([100, 940 / 10000, 10 / 100, 100 / 1000], false), ([100, 957 / 10000, 10 / 100, 99 / 1000], true),
    ([100, 1100 / 10000, 11 / 100, 100 / 1000], false), ([100, 1100 / 10000, 11 / 100, 110 / 1000], true)]

/-- The difference of a pair of rows in `test_diffs_someNeverpops`, for a penalty. -/
def neverDiff (penalty : ℚ) (p : ℕ × ℕ) : PyFloat :=
  difference neverRows.X (scaling neverRows.X [0, 1, 2, 3, 4, 5]) neverRows.Kn penalty p

/-- test_history.py:163-176, `test_diffs_someNeverpops`.  The test expects 0.00120, divided by `1 + exp(12*(4/6 - 0.4))`, about 25.53,
for the pairs whose first row never was in the population.  The code divides by the number of pairs, which is 3, and takes the
floor, which is 1: its penalty is `1 + exp(12*(1 - 0.4))`, about 1340.4.  With the rows chosen in the test the results agree all the
same, and they would not with the penalty 25.53.  (See C60.) -/
example :
    penaltyStep neverRows.Kn.card 3 = 1 ∧
    within (10 / 100) (neverDiff (13404 / 10) (0, 1)) (120 / 100000 / (2553 / 100)) = true ∧
    within (10 / 100) (neverDiff (13404 / 10) (0, 2)) (120 / 100000 / (2553 / 100)) = true ∧
    within (10 / 100) (neverDiff (13404 / 10) (2, 3)) (120 / 100000) = true ∧
    within (10 / 100) (neverDiff (2553 / 100) (0, 1)) (120 / 100000 / (2553 / 100)) = false := by decide +kernel

/-- The rows of `test_call`. -/
def callRows : Store 3 := setRows finder
  [([90, 11 / 100, 2 / 10, 30 / 100], false), ([90, 9 / 100, 2 / 10, 30 / 100], false),
    ([100, 9 / 100, 2 / 10, 30 / 100], false), ([110, 11 / 100, 2 / 10, 30 / 100], false),
    ([110, 10 / 100, 2 / 10, 30 / 100], false), ([140, 10 / 100, 2 / 10, 30 / 100], false),
    ([140, 10 / 100, 2 / 10, 31 / 100], false), ([1401 / 10, 10 / 100, 2 / 10, 31 / 100], false)]

/-- test_history.py:179-197, `test_call`: the rows 6, 1 and 0 are chosen, each of them cleared before the next call. -/
example : (callRows.call [0, 1, 2, 3, 4, 5, 6, 7] 1000 [] fun _ _ => 1).1 = some 6 ∧
    ((callRows.clearRow 6).call [0, 1, 2, 3, 4, 5, 7] 1000 [] fun _ _ => 1).1 = some 1 ∧
    (((callRows.clearRow 6).clearRow 1).call [0, 2, 3, 4, 5, 7] 1000 [] fun _ _ => 1).1 = some 0 := by
  decide +kernel

/-! ## `Test_History` -/

/-- The column of scores in `test_kkr`. -/
def kkrHist : Hist :=
  { init 10 with
    X := fun r => ⟨.fin (([3, 1, 4, 0, 2, 5, 0, 9] : List ℚ).getD r 0), []⟩
    K := [1, 4, 0, 2, 5, 7] }

/-- test_history.py:206-223, `test_kkr`. -/
example : [7, 1, 99].map (fun x => (position kkrHist (.fin x), pickRow (sortRows kkrHist.K) 6)) =
    [(5, some 3), (0, some 3), (6, some 3)] := by decide +kernel

/-- The individual number `k` with the given score. -/
def ind (x : ℚ) (k : ℕ) : Ind := ⟨.fin x, [.fin k, .fin (k + 1), .fin (k + 2)], some k⟩

/-- The least eligible row is the most expendable one. -/
def least (s : Finset ℕ) : Option ℕ := (List.range 100).find? (· ∈ s)

/-- A history that holds 10 records, after adding individuals. -/
def filled (nip : Bool) (l : List Ind) : Hist := l.foldl (fun h i => (add id h i nip least).1) (init 10)

/-- The values of the records, in order. -/
def valuesOf (h : Hist) : List (List PyFloat) := (records h).map Row.values

/-- The scores of the records, in order. -/
def scoresOf (h : Hist) : List PyFloat := (records h).map Row.sse

/-- test_history.py:226-234, `test_add_worsening`. -/
example : let h := filled false ((List.range 5).map fun (k : ℕ) => ind (100 + (k : ℚ)) k)
    valuesOf h = (List.range 5).map (fun k => (ind 0 k).values) ∧
      scoresOf h = (List.range 5).map (fun (k : ℕ) => PyFloat.fin (100 + (k : ℚ))) := by decide +kernel

/-- test_history.py:237-250, `test_add_ignoreInfSSE`: infinite scores are ignored. -/
example : let h := filled false ((List.range 5).map fun (k : ℕ) =>
      if k < 3 then ind (100 + (k : ℚ)) k else { ind 0 k with sse := .pinf })
    valuesOf h = (List.range 3).map (fun k => (ind 0 k).values) ∧
      (add id h { ind 0 3 with sse := .pinf } false least).2 = .skipped := by decide +kernel

/-- test_history.py:253-260, `test_add_improving`. -/
example : valuesOf (filled false ((List.range 5).map fun (k : ℕ) => ind (100 - (k : ℚ)) k)) =
    (List.range 5).map fun k => (ind 0 (4 - k)).values := by decide +kernel

/-- The loop of `test_add_limitSize_worsening` and `test_add_limitSize_improving`: whenever ten individuals are in the
population, the one with the smallest row number leaves it.  With the history goes the dict from individuals to rows. -/
def limitLoop (scores : ℕ → ℚ) : ℕ → Hist × List (Int × ℕ)
  | 0 => (init 10, [])
  | k + 1 =>
    let s := limitLoop scores k
    let r := add id s.1 (ind (scores k) k) false least
    let kr := match r.2 with
      | .row n => ((k : Int), n) :: s.2
      | _ => s.2
    if kr.length = 10 then
      match (List.range 100).findSome? (fun n => kr.find? fun e => e.2 = n) with
      | some e => (notInPopRow { r.1 with kr := fun x => if x = e.1 then none else r.1.kr x } e.2, kr.erase e)
      | none => (r.1, kr)
    else (r.1, kr)

/-- The first values of the records, in order. -/
def firsts (h : Hist) : List ℚ := (valuesOf h).filterMap fun l => l.head?.bind finiteOf

/-- test_history.py:270-286, `test_add_limitSize_worsening`: ten records, in increasing order. -/
example : let h := (limitLoop (fun k => 1000 + k) 15).1
    h.K.length = 10 ∧ (firsts h).length = 10 ∧ (firsts h).IsChain (· < ·) := by decide +kernel

/-- test_history.py:289-305, `test_add_limitSize_improving`: ten records, in decreasing order. -/
example : let h := (limitLoop (fun k => 1000 - k) 15).1
    h.K.length = 10 ∧ (firsts h).length = 10 ∧ (firsts h).IsChain (· > ·) := by decide +kernel

/-- test_history.py:308-321, `test_add_limitSize_improving_neverInPop`. -/
example : let h := filled true ((List.range 15).map fun (k : ℕ) => ind (1000 - (k : ℚ)) k)
    h.K.length = 10 ∧ h.Kp.card = 0 ∧ h.Kn.card = 10 ∧ (firsts h).length = 10 ∧ (firsts h).IsChain (· > ·) := by
  decide +kernel

/-- test_history.py:324-334, `test_add_then_purge`. -/
example : let h := filled false ((List.range 5).map fun (k : ℕ) => ind (100 - (k : ℚ)) k)
    h.K.length = 5 ∧ h.Kp.card = 5 ∧ (purgePop h).K.length = 0 ∧ (purgePop h).Kp.card = 0 := by decide +kernel

/-- The ten records of the following tests. -/
def ten : Hist := filled false ((List.range 10).map fun (k : ℕ) => ind (10 + (k : ℚ)) k)

/-- The scores and the values of `bar` given by `value_vs_SSE`. -/
def query (h : Hist) (m : Mode) (maxRatio : ℚ) : Option (List PyFloat × List (Option PyFloat)) :=
  (queryRows (fun r => (finiteOf (h.X r).sse).getD 0) h.K h.Kp h.Kn m maxRatio).map fun K =>
    (K.map fun r => (h.X r).sse, K.map fun r => (h.X r).values[1]?)

/-- `n` numbers from `a` on. -/
def upFrom (a n : ℕ) : List PyFloat := (List.range n).map fun k => .fin ((a + k : ℕ) : ℚ)

/-- test_history.py:337-345, `test_value_vs_SSE`. -/
example : query ten .all 1000 = some (upFrom 10 10, (upFrom 1 10).map some) := by decide +kernel

/-- test_history.py:348-356, `test_value_vs_SSE_maxRatio`. -/
example : query ten .all (15 / 10) = some (upFrom 10 6, (upFrom 1 6).map some) := by decide +kernel

/-- test_history.py:359-368, `test_value_vs_SSE_inPop`: the last individual has left the population. -/
example : query (notInPop ten (ind 19 9)) (modeOf true false false) 1000 =
    some (upFrom 10 9, (upFrom 1 9).map some) := by decide +kernel

/-- test_history.py:371-380, `test_value_vs_SSE_notInPop`: four individuals have left the population. -/
example : query ([6, 7, 8, 9].foldl (fun h (k : ℕ) => notInPop h (ind (10 + (k : ℚ)) k)) ten) (modeOf false true false) 1000 =
    some (upFrom 16 4, (upFrom 7 4).map some) := by decide +kernel

/-- test_history.py:383-398, `test_pickle`, with other values: the records are there after loading. -/
example : (load (save ten (List.range 10) [])).map (fun h => (h.K.length, valuesOf h)) = some (10, valuesOf ten) := by
  decide +kernel

end Conformance
end History
end Ade
