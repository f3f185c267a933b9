import Mathlib.Algebra.Order.Field.Rat
import Mathlib.Data.List.Sort

/-!
# Model: small helpers

`ade/util.py`, classes `Bag`, `EvalTimer` and `Messenger`.
-/

set_option autoImplicit false

namespace Ade

namespace Bag

/-- `Bag` (ade/util.py:101-122); Python's `None` is `none`. -/
abbrev Contents (α : Type) := Option α

/-- `__bool__` (ade/util.py:111-112). -/
def toBool {α : Type} (b : Contents α) : Bool := b.isSome

/-- `pop` (ade/util.py:114-117): new contents, and the value returned. -/
def pop {α : Type} (b : Contents α) : Contents α × Option α := (none, b)

/-- `__call__` (ade/util.py:119-122): new contents, and the value returned. -/
def call {α : Type} (b : Contents α) (value : Option α) : Contents α × Option α :=
  let x := if value.isSome then value else b
  (x, x)

/-- Operations on a bag. -/
inductive Op (α : Type) where
  | put (v : α)
  | peek
  | pop

/-- One operation: new contents, and the value returned. -/
def step {α : Type} (b : Contents α) : Op α → Contents α × Option α
  | .put v => call b (some v)
  | .peek => call b none
  | .pop => pop b

/-- A sequence of operations: contents at the end, and each operation with the value it returned. -/
def run {α : Type} (b : Contents α) : List (Op α) → Contents α × List (Op α × Option α)
  | [] => (b, [])
  | o :: os =>
    let r := step b o
    let rest := run r.1 os
    (rest.1, (o, r.2) :: rest.2)

end Bag

namespace EvalTimer

/-- One finished call: the ID, and the clock at its beginning and at its end
(ade/util.py:152-171). -/
structure Done where
  id : ℕ
  t0 : ℚ
  t1 : ℚ

/-- The dicts `times` and `Ns` (ade/util.py:149-150), which have the same keys, in order of
insertion. -/
abbrev Timer := List (ℕ × ℚ × ℕ)

/-- `done` (ade/util.py:164-168): the clock is added, not the time elapsed. -/
def record (t : Timer) (d : Done) : Timer :=
  if t.any fun e => e.1 == d.id then
    t.map fun e => if e.1 = d.id then (e.1, e.2.1 + d.t1, e.2.2 + 1) else e
  else t ++ [(d.id, d.t1, 1)]

/-- The timer after a sequence of calls, in the order in which they end. -/
def timer (ds : List Done) : Timer := ds.foldl record []

/-- `avgTime` (ade/util.py:189). -/
def avg (e : ℕ × ℚ × ℕ) : ℚ := e.2.1 / e.2.2

/-- `__iter__` (ade/util.py:173-192); Python's sort is stable. -/
def iter (t : Timer) : List ℕ := (t.insertionSort fun a b => avg a ≤ avg b).map Prod.fst

end EvalTimer

namespace Messenger

/-- State of a `Messenger` (ade/util.py:207-210) and of its files. Files are numbers, 0 is standard
output; `out` is what was written to each, `closed` whether it was closed, `broken` whether writing to
it raises an exception. `_lineWritten` is the attribute set by `writeLine`, a different one from
`_lineWasWritten`. -/
structure St where
  fh : Option ℕ
  newlineNeeded : Bool
  lineWasWritten : Bool
  lineWritten : Bool
  out : ℕ → List Char
  closed : ℕ → Bool
  broken : ℕ → Bool

/-- `__init__` (ade/util.py:207-210). -/
def new (broken : ℕ → Bool) : St := ⟨none, false, false, false, fun _ => [], fun _ => false, broken⟩

/-- `fhSet` (ade/util.py:263-270): new state, and the value returned. -/
def fhSet (s : St) (fh : Option ℕ) : St × Option ℕ :=
  if fh = s.fh then (s, fh)
  else
    let closed := match s.fh with
      | some f => if f = 0 then s.closed else fun g => if g = f then true else s.closed g
      | none => s.closed
    ({ s with fh := fh, closed := closed }, s.fh)

/-- `self.fh.write(text)` to file `f` that works. -/
def write (s : St) (f : ℕ) (text : List Char) : St :=
  { s with out := fun g => if g = f then s.out f ++ text else s.out g }

/-- `writeLine` (ade/util.py:222-241). -/
def writeLine (s : St) (line : List Char) : St :=
  match s.fh with
  | none => s
  | some f =>
    let s := { s with lineWritten := true }
    if s.broken f || s.closed f then (fhSet s none).1
    else
      let s := if s.newlineNeeded then { write s f ['\n'] with newlineNeeded := false } else s
      write s f (line ++ ['\n'])

/-- `writeChar` (ade/util.py:243-260); `x` is one character. -/
def writeChar (s : St) (x : Char) : St :=
  match s.fh with
  | none => s
  | some f =>
    if s.broken f || s.closed f then (fhSet s none).1
    else { write s f [x] with newlineNeeded := true }

/-- `lineWritten` (ade/util.py:281-290). -/
def askLineWritten (s : St) : St × Bool := ({ s with lineWasWritten := false }, s.lineWasWritten)

/-- Arguments of a call. -/
inductive Arg where
  | none
  | bool (b : Bool)
  | file (f : ℕ)
  | int (n : ℤ)
  | str (text : List Char)
  deriving DecidableEq

/-- `_fhSet` (ade/util.py:262-279): new state, and the value returned. -/
def setFh (s : St) : Arg → St × Option ℕ
  | .file f => fhSet s (some f)
  | .bool b => fhSet s (if b then some 0 else none)
  | .int n => (writeLine s (List.replicate n.toNat '\n'), none)
  | _ => fhSet s none

/-- `_dashes` (ade/util.py:215-220). -/
def dashes (before after : Bool) : List Char :=
  (if before then ['\n'] else []) ++ List.replicate 120 '-' ++ (if after then ['\n'] else [])

/-- `hasattr(args[0], 'write') or args[0] in (None, True, False)` (ade/util.py:329); `0 == False` and
`1 == True`. -/
def selectsFile : Arg → Bool
  | .file _ => true
  | .none => true
  | .bool _ => true
  | .int n => n == 0 || n == 1
  | .str _ => false

/-- One round of the loop that takes a prefix (ade/util.py:343-352): `none` for `break`. -/
def prefixOf : Arg → Option (List Char)
  | .int n => some (if n > 0 then List.replicate n.toNat ' ' else ['\n'])
  | .bool b => some (if b then [' '] else ['\n'])
  | .str t => if t = ['-'] then some (dashes true true) else none
  | _ => none

/-- The loop that takes prefixes, at most `n` rounds; `none` for an `IndexError`. -/
def takePrefix : ℕ → List Arg → Option (List Char × List Arg)
  | 0, args => some ([], args)
  | _ + 1, [] => none
  | n + 1, a :: args =>
    match prefixOf a with
    | none => some ([], a :: args)
    | some p => (takePrefix n args).map fun r => (p ++ r.1, r.2)

/-- One round of the loop that takes a suffix (ade/util.py:354-360): `none` for `break`. -/
def suffixOf : Arg → Option (List Char)
  | .str t => if t = ['-'] then some (dashes true false) else none
  | .int n => if n = -1 ∨ n = 0 then some ['\n'] else none
  | .bool b => if b then none else some ['\n']
  | _ => none

/-- The loop that takes suffixes from the end of the arguments, given in reverse order. -/
def takeSuffix (braces : ℕ) : List Arg → List Char × List Arg
  | [] => ([], [])
  | a :: rargs =>
    if (a :: rargs).length > braces + 1 then
      match suffixOf a with
      | none => ([], a :: rargs)
      | some x =>
        let r := takeSuffix braces rargs
        (x ++ r.1, r.2)
    else ([], a :: rargs)

/-- The first argument selects a file (ade/util.py:325-330): new state, and the arguments left. -/
def select (s : St) : List Arg → St × List Arg
  | [] => (s, [])
  | a :: rest => if selectsFile a then ((setFh s a).1, rest) else (s, a :: rest)

/-- The rest of `__call__` (ade/util.py:331-362) up to its return value; `none` if it raises. `braces`
counts the fields of a prototype, `fmt` formats the prototype and its arguments. -/
def emit (braces : List Char → ℕ) (fmt : List Char → List Arg → Option (List Char)) (s : St)
    (args : List Arg) : Option St :=
  match args with
  | [] => some s
  | [.str []] => some (writeChar s '\n')
  | [.str [c]] => some (if c = '-' then writeLine s (dashes true false) else writeChar s c)
  | [.str t] => some (writeLine s t)
  | [.none] => some (writeChar s '\n')
  | [.bool false] => some (writeChar s '\n')
  | [.int n] => if n = 0 then some (writeChar s '\n') else none
  | [_] => none
  | _ =>
    match takePrefix 2 args with
    | some (p, .str t :: rest) =>
      let (x, rrest) := takeSuffix (braces t) (rest.reverse ++ [.str t])
      match rrest.reverse with
      | .str t :: rest => (fmt t rest).map fun y => writeLine s (p ++ y ++ x)
      | _ => none
    | _ => none

/-- `__call__` (ade/util.py:292-362). -/
def call (braces : List Char → ℕ) (fmt : List Char → List Arg → Option (List Char)) (s : St)
    (args : List Arg) : Option St :=
  emit braces fmt (select s args).1 (select s args).2

end Messenger
end Ade
