import Verif.Model.PyFloat

/-!
# Options of a run

Model of the constructor of `DifferentialEvolution` (ade/de.py:391-421), as far as the attributes of the run are
concerned.  Simplifications: option values are `None`, numbers, truth values and other objects; the log handle and
the registration of the shutdown calls are left out.
-/

set_option autoImplicit false

namespace Ade
namespace Options

/-- A Python value given as an option. -/
inductive Val where
  | none
  | num (x : PyFloat)
  | bool (b : Bool)
  | pair (x y : PyFloat)
  | other (n : ℕ)
  deriving DecidableEq

/-- The class attribute `attributes` (ade/de.py:391-402): the options with their default values. -/
def attributes : List (String × Val) :=
  [("CR", .num (.fin (4 / 5))), ("F", .pair (.fin (1 / 2)) (.fin 1)), ("maxiter", .num (.fin 500)),
    ("randomBase", .bool false), ("uniform", .bool false), ("adaptive", .bool true), ("bitterEnd", .bool false),
    ("dwellByGrave", .num (.fin 5)), ("goalSSE", .none), ("xSSE", .bool false)]

/-- `kw.get(name, getattr(self, name, None))` and the replacement of `None` (ade/de.py:411-412).  `kw` are the
keywords given, `cls` the attributes that a subclass defines. -/
def value (kw cls : String → Option Val) (name : String) (dflt : Val) : Val :=
  match (kw name).getD ((cls name).getD .none) with
  | .none => dflt
  | v => v

/-- The attributes set by the loop (ade/de.py:410-413). -/
def settings (kw cls : String → Option Val) : List (String × Val) :=
  attributes.map fun a => (a.1, value kw cls a.1 a.2)

/-- Errors of the constructor. -/
inductive Err where
  | valueError
  | typeError
  deriving DecidableEq

/-- `self.CR < 0.0 or self.CR > 1.0` (ade/de.py:414); truth values are the numbers 0 and 1. -/
def invalidCR : Val → Except Err Bool
  | .num x => .ok (x.lt (.fin 0) || PyFloat.lt (.fin 1) x)
  | .bool _ => .ok false
  | _ => .error .typeError

/-- The value of an attribute. -/
def lookup (s : List (String × Val)) (name : String) : Val := ((s.find? fun a => a.1 == name).map Prod.snd).getD .none

/-- The constructor (ade/de.py:404-416): the attributes of the run, or the exception raised. -/
def construct (kw cls : String → Option Val) : Except Err (List (String × Val)) :=
  let s := settings kw cls
  match invalidCR (lookup s "CR") with
  | .error e => .error e
  | .ok true => .error .valueError
  | .ok false => .ok s

/-- What a run is conducted with: the values of the attributes at the places where they are read. -/
structure Conduct where
  /-- in `crossover` (ade/de.py:457) and for the critical value of F (ade/de.py:678) -/
  CR : Val
  /-- F and adaptive mode (ade/de.py:678) -/
  F : Val
  adaptive : Val
  /-- number of generations (ade/de.py:582) -/
  maxiter : Val
  /-- choice of the base (ade/de.py:591-592) -/
  randomBase : Val
  /-- goal (ade/de.py:611) -/
  goalSSE : Val
  /-- giving up (ade/de.py:624-626) -/
  bitterEnd : Val
  dwellByGrave : Val
  /-- evaluation of challengers (ade/de.py:539, 547) -/
  xSSE : Val
  deriving DecidableEq

/-- What a run with the given attributes is conducted with (ade/de.py:444-683; no other place reads the options). -/
def conduct (s : List (String × Val)) : Conduct :=
  { CR := lookup s "CR"
    F := lookup s "F"
    adaptive := lookup s "adaptive"
    maxiter := lookup s "maxiter"
    randomBase := lookup s "randomBase"
    goalSSE := lookup s "goalSSE"
    bitterEnd := lookup s "bitterEnd"
    dwellByGrave := lookup s "dwellByGrave"
    xSSE := lookup s "xSSE" }

end Options
end Ade
