import Verif.Model.Items
import Verif.Model.Reporter

/-!
# The tests of `ade/test/test_individual.py` and `ade/test/test_report.py`, on the model

These are tests of the model, not proofs: every example repeats a test of the repository with the same
inputs and the results expected there. They count for no property.

The scores of Ackley's function are given to 10 decimals; callbacks that return at once are events right
after the call.
-/

set_option autoImplicit false

namespace Ade
namespace Individual
namespace Conformance

/-- test_individual.py:65-68, `test_getAndSet`. -/
example : Items.getItem ["x", "y"] (Items.setItem [(0 : ℚ), 0] (.int 1) (314 / 100)).1 (.int 1) =
    .ok (314 / 100) := by decide +kernel

/-- test_individual.py:70-75, `test_equals_not`. -/
example : (spawn [0, 0]).equals (spawn [0, 1]) = false ∧ (spawn [0, 1]).equals (spawn [0, 0]) = false ∧
    (spawn [0, 0]).eq (spawn [0, 1]) = false := by decide +kernel

/-- test_individual.py:77-86, `test_iterate`. -/
example : Items.iter (Items.setItem (Items.setItem [(7 : ℚ), 7] (.int 0) 10).1 (.int 1) 20).1 = [10, 20] := by
  decide +kernel

/-- The individual `0.5*np.ones(2)` of the tests. -/
def half : Individual := spawn [1 / 2, 1 / 2]

/-- test_individual.py:88-93, `test_subtract`. -/
example : (half.sub half).eq (spawn [0, 0]) = true ∧ (half.sub (half.sub half)).eq half = true := by
  decide +kernel

/-- test_individual.py:95-98, `test_add`. -/
example : (half.add half).eq (spawn [1, 1]) = true := by decide +kernel

/-- test_individual.py:100-106, `test_multiply`. -/
example : (half.scale 0).eq (spawn [0, 0]) = true ∧ (half.scale 1).eq (spawn [1 / 2, 1 / 2]) = true ∧
    (half.scale 20).eq (spawn [10, 10]) = true := by decide +kernel

/-- test_individual.py:108-114, `test_evaluate`, Ackley's function is zero at zero. -/
example : (finishEval (spawn [0, 0]) 0 (.done (some (.fin 0)))).1.SSE = .fin 0 ∧
    (finishEval (spawn [0, 0]) 0 (.done (some (.fin 0)))).2 = 1 := by decide +kernel

/-- test_individual.py:116-124, `test_nonzero`. -/
example : (finishEval (spawn [0, 0]) 0 (.done (some (.fin 0)))).1.toBool = true ∧
    ((spawn [0, 0]).setSSE (some .pinf)).toBool = true ∧
    ((spawn [0, 0]).setSSE (some (.fin (-1)))).toBool = false := by decide +kernel

/-- test_individual.py:126-134, `test_eq_and_hash`, the comparison. -/
example (x : ℚ) : ((spawn [11 / 10, 22 / 10]).setSSE (some (.fin x))).eq
    ((spawn [11 / 10, 22 / 10]).setSSE (some (.fin x))) = true := by
  by_cases h : x < 0 <;> simp [eq, SSE, setSSE, spawn, PyFloat.eq, PyFloat.lt, PyFloat.zero, equals, h]

end Conformance
end Individual

namespace Reporter
namespace Conformance

/-- An individual with a finite score. -/
def scored (x : ℚ) (vals : List ℚ) : Individual := ⟨some (.fin x), vals⟩

/-- The individuals of a test, in the order of their creation. -/
def objects (l : List Individual) : ℕ → Individual := fun k => l.getD k (Individual.spawn [])

/-- What was passed to callbacks. -/
def calls (s : Option St) : Option (List (ℕ × List ℚ × PyFloat)) :=
  s.map fun s => s.log.map fun c => (c.k, c.values, c.score)

/-- test_report.py:66-73, `test_runCallbacks_basic`. -/
example : calls (run 1 (runCallbacks 1 (new (objects [scored (876 / 1000) [1, 2]])) 0 none)
      [.returned .nothing]) = some [(0, [1, 2], .fin (876 / 1000))] := by decide +kernel

/-- test_report.py:75-83, `test_runCallbacks_complaint`: the callback complains, and the complaint handler is called. -/
example : calls (run 1 (runCallbacks 1 (new (objects [scored 0 [0, 0]])) 0 none) [.returned .complaint]) =
      some [(0, [0, 0], .fin 0)] ∧
    (run 1 (runCallbacks 1 (new (objects [scored 0 [0, 0]])) 0 none) [.returned .complaint]).map St.phase =
      some (.complaining 0 0) := by decide +kernel

/-- The two individuals of `test_runCallbacks_stacked`, the second scheduled while the run for the first is under
way. -/
def stacked : St :=
  { runCallbacks 2 (new (objects [scored (876 / 1000) [1, 2], scored (543 / 1000) [3, 4]])) 0 none with
    bag := some 1 }

/-- test_report.py:86-103, `test_runCallbacks_stacked`. -/
example : calls (run 2 stacked (List.replicate 4 (.returned .nothing))) =
      some [(0, [1, 2], .fin (876 / 1000)), (1, [1, 2], .fin (876 / 1000)), (0, [3, 4], .fin (543 / 1000)),
        (1, [3, 4], .fin (543 / 1000))] ∧
    (run 2 stacked (List.replicate 4 (.returned .nothing))).map St.phase = some .idle := by decide +kernel

/-- test_report.py:106-112, `test_newBest_basic`: first the immediate callback, then the deferred one. -/
example : calls (run 2 (newBest 2 (new (objects [scored 5 [1, 1]])) 0 false) [.returned .nothing, .returned .nothing]) =
    some [(0, [1, 1], .fin 5), (1, [1, 1], .fin 5)] := by decide +kernel

/-- The individuals of `test_newBest_stacked`: the best of the population, then ones at 1e-3, 1e-4, 1e-5. -/
def improving : ℕ → Individual :=
  objects [scored (5 / 10) [1 / 10, 1 / 10], scored (40532560532 / 10 ^ 13) [1 / 10 ^ 3, 1 / 10 ^ 3],
    scored (4005325673 / 10 ^ 13) [1 / 10 ^ 4, 1 / 10 ^ 4], scored (400053257 / 10 ^ 13) [1 / 10 ^ 5, 1 / 10 ^ 5]]

/-- The first callback has returned when the others are reported; the second one has not. -/
def reported4 : Option St :=
  (run 2 (newBest 2 (new improving) 0 false) [.returned .nothing]).map fun s =>
    newBest 2 (newBest 2 (newBest 2 s 1 false) 2 false) 3 false

/-- test_report.py:115-134, `test_newBest_stacked`: after the second callback has returned, the callbacks are run only for
the newest individual. -/
example : calls (reported4.bind fun s => run 2 s (List.replicate 3 (.returned .nothing))) =
      some [(0, [1 / 10, 1 / 10], .fin (5 / 10)), (1, [1 / 10, 1 / 10], .fin (5 / 10)),
        (0, [1 / 10 ^ 5, 1 / 10 ^ 5], .fin (400053257 / 10 ^ 13)),
        (1, [1 / 10 ^ 5, 1 / 10 ^ 5], .fin (400053257 / 10 ^ 13))] ∧
    (reported4.bind fun s => run 2 s (List.replicate 3 (.returned .nothing))).map St.phase = some .idle := by
  decide +kernel

/-- `msgRatio` of every individual to the next one. -/
def chain : List Individual → List (Option ℕ × Char)
  | a :: b :: l => msgRatio a b '!' :: chain (b :: l)
  | _ => []

/-- Scores of Ackley's function for 1.001e-3, 1e-3, 5e-4, 3e-5, 1e-5. -/
def nearZero : List Individual :=
  [scored (40573626171 / 10 ^ 13) [], scored (40532560532 / 10 ^ 13) [], scored (20133141423 / 10 ^ 13) [],
    scored (1200479311 / 10 ^ 13) [], scored (400053257 / 10 ^ 13) []]

/-- test_report.py:137-152, `test_msgRatio`: the characters are `0X2X9X3X`. -/
example : chain nearZero = [(some 0, '0'), (some 2, '2'), (some 17, '9'), (some 3, '3')] ∧
    (chain nearZero.reverse).all (fun r => r == (none, 'X')) = true := by decide +kernel

/-- An individual with the score `1/x`, or the given one at zero. -/
def reciprocal (atZero : PyFloat) (x : ℚ) : Individual :=
  ⟨some (if x = 0 then atZero else .fin (1 / x)), [x]⟩

/-- test_report.py:155-173, `test_msgRatio_nan`. -/
example : chain ([1, 0, 1, 14 / 10, 3, 0, 0, 1, 31 / 10].map (reciprocal .nan)) =
    [(some 0, '#'), (some 1000, '!'), (some 1, '1'), (some 2, '2'), (some 0, '#'), (some 0, '%'),
      (some 1000, '!'), (some 3, '3')] := by decide +kernel

/-- test_report.py:176-193, `test_msgRatio_inf`: all compared with the first. -/
example : [0, 1, 14 / 10, 2, 31 / 10].map (fun x => msgRatio (reciprocal .pinf 1) (reciprocal .pinf x) '!') =
    [(some 0, '#'), (some 0, '0'), (some 1, '1'), (some 2, '2'), (some 3, '3')] := by decide +kernel

/-- The individuals of the following tests, with Ackley's function at 1.005, 1.0, 0.1, 0.05, 0.5, 0.06. -/
def ackleys : ℕ → Individual :=
  objects [scored (36430923460 / 10 ^ 10) [1005 / 1000, 1005 / 1000], scored (36253849384 / 10 ^ 10) [1, 1],
    scored (8686089961 / 10 ^ 10) [1 / 10, 1 / 10], scored (3288422061 / 10 ^ 10) [5 / 100, 5 / 100],
    scored (42536540266 / 10 ^ 10) [1 / 2, 1 / 2], scored (4229048289 / 10 ^ 10) [6 / 100, 6 / 100]]

/-- The callback of the tests returns at once. -/
def settle (s : St) : St := if s.phase = .idle then s else ((step 1 s (.returned .nothing)).getD s)

/-- Reports one after the other: the final state and the ratios returned. -/
def reports (s : St) : List (ℕ × Option ℕ) → St × List (Option ℕ)
  | [] => (s, [])
  | (i, o) :: l =>
    let r := call 1 s i o false false
    let t := reports (settle r.1) l
    (t.1, r.2 :: t.2)

/-- test_report.py:196-215, `test_call_otherNone`. -/
example :
    (reports (new ackleys) [(2, none), (0, none)]).1.iBest = some 2 ∧
    (reports (new ackleys) [(2, none), (0, none)]).1.chars = ['*', '4'] ∧
    (reports { (reports (new ackleys) [(2, none), (0, none)]).1 with iBest := some 0 } [(1, none)]).1.iBest =
      some 1 ∧
    (reports { (reports (new ackleys) [(2, none), (0, none)]).1 with iBest := some 0 } [(1, none)]).1.chars =
      ['*', '4', '!'] := by decide +kernel

/-- test_report.py:218-229, `test_call_double`. -/
example :
    (reports (new ackleys) [(1, some 0), (2, some 1), (3, some 2), (4, some 3), (5, some 4)]).2 =
      [some 0, some 4, some 3, none, some 10] ∧
    (reports (new ackleys) [(1, some 0), (2, some 1), (3, some 2), (4, some 3), (5, some 4)]).1.chars =
      "0+4+3+X9".toList := by decide +kernel

/-- test_report.py:232-241, `test_call_single`. -/
example :
    (reports (new ackleys) [(1, none), (2, none), (3, none), (4, none), (5, none)]).1.chars = "*!!91".toList ∧
    (reports (new ackleys) [(1, none), (2, none), (3, none), (4, none), (5, none)]).1.iBest = some 3 := by
  decide +kernel

/-- The individuals of `test_call_single_forced`. -/
def forced : ℕ → Individual :=
  objects [scored (36253849384 / 10 ^ 10) [1, 1], scored (36253685665 / 10 ^ 10) [99999 / 100000, 1],
    scored (36253522001 / 10 ^ 10) [99998 / 100000, 1]]

/-- test_report.py:244-255, `test_call_single_forced`: no callback for the second individual, which is hardly better, but one
for the third, which is forced. -/
example :
    let s1 := settle (call 1 (new forced) 0 none false false).1
    let s2 := settle (call 1 s1 1 none false false).1
    let s3 := settle (call 1 s2 2 none false true).1
    s1.log.map Call.score = [.fin (36253849384 / 10 ^ 10)] ∧ s2.log.length = 1 ∧
      s3.log.map Call.score = [.fin (36253849384 / 10 ^ 10), .fin (36253522001 / 10 ^ 10)] := by decide +kernel

end Conformance
end Reporter
end Ade
