import Verif.Model.Options
import Verif.Model.Population
import Verif.Model.Thermistor
import Verif.Model.Voc

/-!
# The example programs from their options to the end

Model of `Runner.__call__` and `main` of ade/examples/thermistor.py (346-371, 412-420) and ade/examples/voc.py (269-304):
the population made and set up, the keywords given to `DifferentialEvolution`, the file saved, and whether the reactor is
stopped at the end.  `run` prints a failure of `__call__` and does nothing else (ade/examples/thermistor.py:370-371,
ade/examples/voc.py:292-293, ade/util.py:56-66), so that a program whose `__call__` fails goes on waiting.

Simplifications: command-line parsing is left to `argparse` (see `Scripts` for `Args`); what the environment does is
given (`Env`); the log file, the process queue (see `QueueRunner`), plots and messages are left out; the initial setup of
the population is taken to end, complete or aborted.
-/

set_option autoImplicit false

namespace Ade
namespace ExampleRun

/-- Which of the two programs. -/
inductive Kind where
  | thermistor
  | voc
  deriving DecidableEq

/-- The options of both programs (ade/examples/thermistor.py:396-409, ade/examples/voc.py:323-332).  `base` is
`--random-base` of the thermistor program and `--best` of the other; `xSSE` and `pickle` belong to the thermistor
program. -/
structure Opts where
  maxiter : ℤ
  popsize : ℤ
  CR : PyFloat
  F : List Char
  bitterEnd : Bool
  base : Bool
  notAdaptive : Bool
  uniform : Bool
  xSSE : Bool
  pickle : List Char

/-- The options if none are given on the command line. -/
def defaults : Kind → Opts
  | .thermistor =>
    ⟨2000, 10, .fin (4 / 5), "0.5,1.0".toList, false, false, false, false, false, "~/ade-population.dat".toList⟩
  | .voc => ⟨800, 20, .fin (4 / 5), "0.5,1.0".toList, false, false, false, false, false, []⟩

/-- What is given: `float` on text; whether the data are there or can be downloaded; whether the setup of the population
got aborted; whether the run of differential evolution comes to its end without failing. -/
structure Env where
  float : List Char → Option PyFloat
  data : Bool
  aborted : Bool
  runs : Bool

/-- `args.F.split(',')`. -/
def splitComma : List Char → List (List Char)
  | [] => [[]]
  | c :: cs =>
    if c = ',' then [] :: splitComma cs
    else match splitComma cs with
      | p :: ps => (c :: p) :: ps
      | [] => [[c]]

/-- `[float(x) for x in args.F.split(',')]` (ade/examples/thermistor.py:357, ade/examples/voc.py:279); `none` is a
`ValueError`. -/
def parseF (env : Env) (F : List Char) : Option (List PyFloat) := (splitComma F).mapM env.float

/-- The list as an option value. -/
def fVal : List PyFloat → Options.Val
  | [x, y] => .pair x y
  | l => .other l.length

/-- The keywords of `DifferentialEvolution` (ade/examples/thermistor.py:358-362, ade/examples/voc.py:280-284). -/
def keywords : Kind → Opts → List PyFloat → List (String × Options.Val)
  | .thermistor, o, F =>
    [("CR", .num o.CR), ("F", fVal F), ("maxiter", .num (.fin o.maxiter)), ("xSSE", .bool o.xSSE),
      ("randomBase", .bool o.base), ("uniform", .bool o.uniform), ("adaptive", .bool !o.notAdaptive),
      ("bitterEnd", .bool o.bitterEnd), ("dwellByGrave", .num (.fin 12))]
  | .voc, o, F =>
    [("CR", .num o.CR), ("F", fVal F), ("maxiter", .num (.fin o.maxiter)),
      ("randomBase", .bool !o.base), ("uniform", .bool o.uniform), ("adaptive", .bool !o.notAdaptive),
      ("bitterEnd", .bool o.bitterEnd)]

/-- The number of parameters: the names and bounds that `Evaluator.setup` gives (ade/examples/thermistor.py:203-214,
ade/examples/voc.py:187-190) are given to `Population`. -/
def dimension : Kind → ℕ
  | .thermistor => Thermistor.bounds.length
  | .voc => Voc.bounds.length

/-- What the program did: the size of the population, whether it was set up with uniform variates, what differential
evolution was performed with, the file written, and whether the reactor was stopped. -/
structure Outcome where
  size : Option ℤ
  uniform : Option Bool
  conduct : Option Options.Conduct
  saved : Option (List Char)
  stopped : Bool
  deriving DecidableEq

/-- `if len(args.P) > 1: self.p.save(args.P)` (ade/examples/thermistor.py:365); the other program saves nothing. -/
def save : Kind → Opts → Option (List Char)
  | .thermistor, o => if o.pickle.length > 1 then some o.pickle else none
  | .voc, _ => none

/-- `Runner.__call__` (ade/examples/thermistor.py:346-368, ade/examples/voc.py:269-290).  A failing setup of the data gives
`None` instead of names and bounds, and using it raises.  Differential evolution is not performed if the setup of the
population got aborted (ade/de.py:674-676); otherwise `FManager` raises an `IndexError` for a list of one number
(ade/de.py:678, 96, 130). -/
def program (k : Kind) (env : Env) (o : Opts) : Outcome :=
  if !env.data then ⟨none, none, none, none, false⟩
  else
    let size := Population.sizeOf (some o.popsize) (dimension k)
    match parseF env o.F with
    | none => ⟨some size, some false, none, none, false⟩
    | some F =>
      match Options.construct (fun name => (keywords k o F).lookup name) fun _ => none with
      | .error _ => ⟨some size, some false, none, none, false⟩
      | .ok s =>
        if env.aborted then ⟨some size, some false, none, save k o, true⟩
        else if F.length < 2 then ⟨some size, some false, none, none, false⟩
        else if !env.runs then ⟨some size, some false, some (Options.conduct s), none, false⟩
        else ⟨some size, some false, some (Options.conduct s), save k o, true⟩

end ExampleRun
end Ade
