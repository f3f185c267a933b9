import Verif.Model.ExecRunner
import Verif.Model.Voc

/-!
# The Goldstein-Price program and its parent

Model of `main` in `ade/examples/goldstein-price.c`, of the pipes between that program and the `ExecProtocol` of
`ade/examples/goldstein-price.py`, and of `Solver.__call__` there.

The standard input is a sequence of tokens: a text that `scanf` reads as a number with `%f`, or one that it does not.  Which
lines the numbers are on does not matter to `scanf`.  Numbers, the function `gp` and `isinf` are parameters, as C computes in
single precision.  The program runs with a line-buffered output (`stdbuf -oL`, ade/examples/goldstein-price.py:127), so that each
`printf` is a write to the pipe; a write to a pipe that nobody can read from ends the program (SIGPIPE).
-/

set_option autoImplicit false

namespace Ade
namespace GpMain

/-- A token of the standard input. -/
inductive Tok (F : Type) where
  | num (x : F)
  | junk
  deriving DecidableEq

/-- The function and the test of its results (ade/examples/goldstein-price.c:25-39, 50). -/
structure Arith (F : Type) where
  gp : F → F → F
  isInf : F → Bool

/-- State of the program: its variables (ade/examples/goldstein-price.c:45), what has not been read, whether more may
come, whether there is a reader of its output, what has been printed, and whether it has ended. -/
structure Prog (F : Type) where
  x : F
  y : F
  input : List (Tok F)
  inOpen : Bool
  outOpen : Bool
  out : List F
  ended : Bool
  deriving DecidableEq

/-- A program that has just been started; the variables have no defined values. -/
def fresh {F : Type} (x y : F) : Prog F := ⟨x, y, [], true, true, [], false⟩

/-- `scanf("%f %f", &x, &y)` (ade/examples/goldstein-price.c:48), whose result is not looked at: the values of the variables
and the input left.  A token that is not a number stays in the input, and variables without a number keep their values.
`none`: it waits for input. -/
def scan {F : Type} (p : Prog F) : Option (F × F × List (Tok F)) :=
  match p.input with
  | [] => if p.inOpen then none else some (p.x, p.y, [])
  | .junk :: rest => some (p.x, p.y, .junk :: rest)
  | [.num a] => if p.inOpen then none else some (a, p.y, [])
  | .num a :: .num b :: rest => some (a, b, rest)
  | .num a :: .junk :: rest => some (a, p.y, .junk :: rest)

/-- One pass of the loop (ade/examples/goldstein-price.c:47-54), if the program has not ended and does not wait. -/
def pass {F : Type} (A : Arith F) (p : Prog F) : Prog F :=
  if p.ended then p
  else match scan p with
    | none => p
    | some (x, y, rest) =>
      let p := { p with x := x, y := y, input := rest }
      if A.isInf (A.gp x y) then { p with ended := true }
      else if p.outOpen then { p with out := p.out ++ [A.gp x y] }
      else { p with ended := true }

/-- What can happen to the program: tokens arrive, its input or its output is closed at the other end, or it goes on. -/
inductive Ev (F : Type) where
  | feed (ts : List (Tok F))
  | closeIn
  | closeOut
  | pass
  deriving DecidableEq

/-- The effect of an event. -/
def step {F : Type} (A : Arith F) (p : Prog F) : Ev F → Prog F
  | .feed ts => { p with input := p.input ++ ts }
  | .closeIn => { p with inOpen := false }
  | .closeOut => { p with outOpen := false }
  | .pass => pass A p

/-- The state after some events. -/
def run {F : Type} (A : Arith F) (p : Prog F) (es : List (Ev F)) : Prog F := es.foldl (step A) p

/-- What `cmd` writes for a pair of values (ade/examples/goldstein-price.py:99). -/
def line {F : Type} (a : F × F) : List (Tok F) := [.num a.1, .num a.2]

/-- A protocol and its program, and the lines received so far, each with the command it was taken to answer. -/
structure Pair (F : Type) where
  er : ExecRunner.St
  prog : Prog F
  served : List (ℕ × F)

/-- Events of the two: a command is called or the process is connected, the program goes on, or the next line that it
printed is received. -/
inductive PairEv where
  | call (n : ℕ)
  | connect
  | pass
  | received

/-- The protocol has changed from `s` to `s'`; the lines it wrote meanwhile, after the `k` that were not answered, arrive at
the program. -/
def Pair.wrote {F : Type} (args : ℕ → F × F) (c : Pair F) (k : ℕ) (s' : ExecRunner.St) : Pair F :=
  { c with er := s', prog := { c.prog with input := c.prog.input ++ (s'.inputs.drop k).flatMap fun n => line (args n) } }

/-- The effect of an event; `args` gives the values of each command. -/
def Pair.step {F : Type} (A : Arith F) (args : ℕ → F × F) (c : Pair F) : PairEv → Pair F
  | .call n => c.wrote args c.er.inputs.length (ExecRunner.step c.er (.call n))
  | .connect => c.wrote args c.er.inputs.length (ExecRunner.step c.er .connect)
  | .pass => { c with prog := pass A c.prog }
  | .received =>
    match c.er.inputs, c.prog.out[c.served.length]? with
    | n :: rest, some v =>
      { c.wrote args rest.length (ExecRunner.step c.er .answer) with served := c.served ++ [(n, v)] }
    | _, _ => c

/-- At the beginning. -/
def Pair.start {F : Type} (x y : F) : Pair F := ⟨ExecRunner.start, fresh x y, []⟩

/-- The state after some events. -/
def Pair.run {F : Type} (A : Arith F) (args : ℕ → F × F) (c : Pair F) (es : List PairEv) : Pair F :=
  es.foldl (Pair.step A args) c

/-- How something that is waited for ends. -/
inductive Ending where
  | done
  | fails
  | never
  deriving DecidableEq

/-- What `Solver.__call__` (ade/examples/goldstein-price.py:221-235) does, in this order. -/
inductive Act where
  | setup
  | addCallback
  | evolve
  | shutdownPool
  | summary
  | stop
  deriving DecidableEq

/-- The first line of a list of waited-for or immediate actions that does not succeed is the last: an exception leaves the
`inlineCallbacks` function, and nothing handles the failure of the `Deferred` that `callWhenRunning` ignores
(ade/examples/goldstein-price.py:258-259). -/
def perform : List (Act × Ending) → List Act
  | [] => []
  | (a, .done) :: rest => a :: perform rest
  | (a, _) :: _ => [a]

/-- `Solver.__call__`, given how the setup, the run and the shutting down of the pool end. -/
def solver (setup run pool : Ending) : List Act :=
  perform [(.setup, setup), (.addCallback, .done), (.evolve, run), (.shutdownPool, pool), (.summary, .done), (.stop, .done)]

end GpMain
end Ade
