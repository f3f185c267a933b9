import Verif.Model.ParamManager

/-!
# Constraint helpers

Model of `ade/constraints.py`: `RelationsChecker` (lines 35-60) and `Constraints` (63-162).
-/

set_option autoImplicit false

namespace Ade
namespace Constraints

open ParamManager (Dict)

/-- One entry `relations[xName][yName] = (m, b, yMaxErr)` (ade/constraints.py:40-45). -/
structure Relation where
  x : String
  y : String
  m : ℚ
  b : ℚ
  yMaxErr : ℚ
  deriving DecidableEq, Repr

/-- `RelationsChecker.__call__` (ade/constraints.py:49-60).  The dict-of-dicts is flattened into the
list of its entries in iteration order (an outer entry with an empty inner dict still looks up its x
parameter in the code; such entries are not represented).  `none` is a `KeyError`. -/
def checkRelations (params : Dict) : List Relation → Option Bool
  | [] => some true
  | r :: rs =>
    match params r.x with
    | none => none
    | some x =>
      match params r.y with
      | none => none
      | some y =>
        let yr := r.m * x + r.b
        if |yr - y| > r.yMaxErr then some false else checkRelations params rs

/-- An entry of `cList` (ade/constraints.py:100-102): method, linear names, log names (`None` and the
empty set are both falsy and so represented by the empty list). -/
structure Registered where
  func : Dict → Bool
  linear : List String
  log : List String

/-- The two `for name in ...: if name not in newParams: newParams[name] = ...` loops
(ade/constraints.py:138-140 and 144-146). -/
def fill (params : Dict) (f : ℚ → ℚ) (names : List String) (new : Dict) : Dict :=
  names.foldl (fun d n =>
    match d n, params n with
    | none, some v => Dict.set d n (f v)
    | _, _ => d) new

/-- `set.issubset(params)`. -/
def subset (names : List String) (params : Dict) : Bool := names.all fun n => (params n).isSome

/-- The closure `wrapper` (ade/constraints.py:134-150) when its cells hold `r`: takes the dict
`newParams`, shared by all wrappers of one iteration, and returns the verdict and the updated shared
dict.  `pow10` is `np.power(10.0, ·)`. -/
def wrapper (pow10 : ℚ → ℚ) (r : Registered) (params : Dict) (new : Dict) : Bool × Dict :=
  if !subset r.linear params then (true, new)
  else
    let new := fill params id r.linear new
    if !subset r.log params then (true, new)
    else
      let new := fill params pow10 r.log new
      (r.func new, new)

/-- `passesConstraints` (ade/population.py:230-234) consuming a `Constraints` object lazily, as
`ParameterManager` does: each yielded wrapper is called while the generator is suspended at its own
`yield`, so its cells hold its own entry; then the plain functions of `fList`. -/
def passesLazy (pow10 : ℚ → ℚ) (params : Dict) : List Registered → List (Dict → Bool) → Dict → Bool
  | [], fs, _ => fs.all fun f => f params
  | r :: rs, fs, new =>
    let (ok, new') := wrapper pow10 r params new
    if !ok then false else passesLazy pow10 params rs fs new'

/-- Call the same wrapper `n` times, sharing `newParams`, until it returns false. -/
def callAgain (pow10 : ℚ → ℚ) (params : Dict) (cell : Registered) : ℕ → Dict → Bool × Dict
  | 0, new => (true, new)
  | n + 1, new =>
    let (ok, new') := wrapper pow10 cell params new
    if !ok then (false, new') else callAgain pow10 params cell n new'

/-- One `passesConstraints` (ade/population.py:230-234) when the object was first collected with
`list(constraints)` (or unpacked with `*`): the generator has finished, so the cell `func` holds the last
function iterated over (of `fList` if that is non-empty), and the name cells those of the last entry of `cList`
(ade/constraints.py:152-156).  `new` is the content of `newParams`, which the wrappers keep from one
check to the next. -/
def checkCollected (pow10 : ℚ → ℚ) (cs : List Registered) (fs : List (Dict → Bool)) (params new : Dict) :
    Bool × Dict :=
  match cs.getLast? with
  | none => (fs.all fun f => f params, new)
  | some r =>
    let cell : Registered := { r with func := (fs.getLast?).getD r.func }
    let (ok, new') := callAgain pow10 params cell cs.length new
    (ok && fs.all fun f => f params, new')

/-- The first check with collected constraints. -/
def passesCollected (pow10 : ℚ → ℚ) (params : Dict) (cs : List Registered)
    (fs : List (Dict → Bool)) : Bool := (checkCollected pow10 cs fs params Dict.empty).1

/-- The verdicts on one parameter combination after the other with collected constraints. -/
def verdicts (pow10 : ℚ → ℚ) (cs : List Registered) (fs : List (Dict → Bool)) : Dict → List Dict → List Bool
  | _, [] => []
  | new, params :: rest =>
    let (ok, new') := checkCollected pow10 cs fs params new
    ok :: verdicts pow10 cs fs new' rest

end Constraints
end Ade
