import Verif.Model.Figures
import Mathlib.Data.List.Basic

/-!
# Command lines and scripts

`Args` (ade/args.py), the extraction of the examples (ade/scripts/examples.py, and its twin in ade/__init__.py) and the
parameter viewer `pv` (ade/scripts/pv.py).
-/

set_option autoImplicit false

namespace Ade

/-! ## Args -/

namespace Args

/-- A value of an option or attribute of the parsed arguments. -/
inductive Val where
  | none
  | bool (b : Bool)
  | text (s : String)
  | int (n : ℤ)
  | list (xs : List String)
  deriving DecidableEq

/-- What was declared to the parser: an option with a default (ade/args.py:114-116), a flag (ade/args.py:120-122) or the
positional arguments (ade/args.py:129-130). The name is `dest`. -/
inductive Decl where
  | store (dest : String) (default : Val)
  | flag (dest : String)
  | positional
  deriving DecidableEq

/-- Arguments of a call of the object, as far as they matter (ade/args.py:108-130).  A callable is given by whether its
module is `__main__`. -/
inductive CallArg where
  | text (s : String)
  | value (v : Val)
  | callable (isMain : Bool)
  deriving DecidableEq

/-- What `argparse` makes of the command line: for each name the value given on it, and the positional arguments.
(`argparse` itself is not part of the package: exits with a message for wrong command lines are left out.) -/
structure CommandLine where
  given : String → Option Val
  rest : List String

/-- An `Args` object: what was declared and, after the first access, the parsed arguments (ade/args.py:69, 104-105). -/
structure Obj where
  decls : List Decl
  parsed : Option (List Decl)

/-- `getattr(self.args, name, None)` for arguments parsed with the given declarations: the value given, else the default;
a flag is `False` if it was not given. The first declaration of a name counts (a second is an error in `argparse`). -/
def lookup (cl : CommandLine) (decls : List Decl) (name : String) : Val :=
  match decls with
  | [] => .none
  | .store d v :: ds => if d = name then (cl.given name).getD v else lookup cl ds name
  | .flag d :: ds => if d = name then (cl.given name).getD (.bool false) else lookup cl ds name
  | .positional :: ds => if name = "_args_" then .list cl.rest else lookup cl ds name

/-- `__getattr__` (ade/args.py:103-106): the object afterwards and the value. -/
def getattr (cl : CommandLine) (o : Obj) (name : String) : Obj × Val :=
  let p := o.parsed.getD o.decls
  ({ o with parsed := some p }, lookup cl p name)

/-- `str(x)[1:]`. -/
def dropFirst (s : String) : String := String.ofList s.toList.tail

/-- Result of a call: nothing, or the callable was run (ade/args.py:126-127). -/
inductive CallResult where
  | nothing
  | ran
  deriving DecidableEq

/-- `__call__` (ade/args.py:108-130). -/
def call (cl : CommandLine) (o : Obj) : List CallArg → Obj × CallResult
  | [.text short, .text _, .value default, .text _] =>
    ({ o with decls := o.decls ++ [.store (dropFirst short) default] }, .nothing)
  | [.text short, .text _, .text _] => ({ o with decls := o.decls ++ [.flag (dropFirst short)] }, .nothing)
  | [.callable isMain] =>
    if isMain then
      let r := getattr cl o "h"
      (r.1, if r.2 = .none ∨ r.2 = .bool false then .ran else .nothing)
    else (o, .nothing)
  | [.text _] => ({ o with decls := o.decls ++ [.positional] }, .nothing)
  | _ => (o, .nothing)

/-- `len(args)` (ade/args.py:97-98); `none` for the TypeError of `len(None)`.  The default `[]` of `getattr` is used only
if `__getattr__` raises AttributeError, which it never does. -/
def len (cl : CommandLine) (o : Obj) : Obj × Option ℕ :=
  let r := getattr cl o "_args_"
  (r.1, match r.2 with | .list xs => some xs.length | _ => none)

/-- `list(args)` (ade/args.py:93-95); `none` for the TypeError of iterating over `None`. -/
def iter (cl : CommandLine) (o : Obj) : Obj × Option (List String) :=
  let r := getattr cl o "_args_"
  (r.1, match r.2 with | .list xs => some xs | _ => none)

/-- `args[k]` for `k ≥ 0` (ade/args.py:100-101); `none` for an exception. -/
def getitem (cl : CommandLine) (o : Obj) (k : ℕ) : Obj × Option String :=
  let r := getattr cl o "_args_"
  (r.1, match r.2 with | .list xs => xs[k]? | _ => none)

/-- The loop of `__init__` over the stripped lines of the text (ade/args.py:75-80): the lines of each paragraph. `textwrap.fill`
is applied to each paragraph's lines joined by blanks. -/
def paraLoop : List (List Char) → List (List Char) → List (List (List Char))
  | [], _ => []
  | line :: rest, acc =>
    let acc' := if line = [] then acc else acc ++ [line]
    if line = [] ∨ rest = [] then acc' :: paraLoop rest [] else paraLoop rest acc'

/-- `__init__` (ade/args.py:71-83): description and epilog, for a function `fill` from the lines of a paragraph to its text. -/
def describe (fill : List (List Char) → List Char) (lines : List (List Char)) : Option (List Char) × Option (List Char) :=
  match (paraLoop lines []).map fill with
  | [] => (none, none)
  | [p] => (some p, none)
  | p :: ps => (some p, some (['\n', '\n'].intercalate ps))

end Args

/-! ## Extraction of the examples -/

namespace Extract

/-- What is at a path: a file with its content, or a directory. -/
inductive Node where
  | file (content : String)
  | dir
  deriving DecidableEq

/-- Extensions in `reFile` (ade/scripts/examples.py:57); ade/__init__.py:56 has no `specs`. -/
def extensions : List (List Char) := ["py".toList, "c".toList, "txt".toList, "specs".toList]

/-- `reFile.match(fileName)` for `[a-z].+\.(py|c|txt|specs)$` (ade/scripts/examples.py:57-59). File names contain no
newline. -/
def wanted (exts : List (List Char)) (name : List Char) : Bool :=
  match name with
  | [] => false
  | c :: rest => decide ('a' ≤ c) && decide (c ≤ 'z') &&
      exts.any fun e => ('.' :: e).isSuffixOf rest && decide (e.length + 1 < rest.length)

/-- The loop of `extract` (ade/scripts/examples.py:58-68) over the listing of the package directory with contents `src`;
`dest` is the subdirectory in the home directory. -/
def extractLoop (exts : List (List Char)) (src : List Char → Option Node) :
    List (List Char) → (List Char → Option Node) → (List Char → Option Node)
  | [], dest => dest
  | name :: names, dest =>
    if wanted exts name then
      match dest name with
      | some _ => extractLoop exts src names dest
      | none =>
        match src name with
        | some (.file content) => extractLoop exts src names (Function.update dest name (some (.file content)))
        | _ => extractLoop exts src names dest
    else extractLoop exts src names dest

/-- `extract` (ade/scripts/examples.py:37-68). The subdirectory, if it does not exist, is made first, empty. -/
def extract (exts : List (List Char)) (listing : List (List Char)) (src : List Char → Option Node)
    (dest : Option (List Char → Option Node)) : List Char → Option Node :=
  extractLoop exts src listing (dest.getD fun _ => none)

end Extract

/-! ## pv -/

namespace Pv

open Figures

/-- Options that decide what is shown (ade/scripts/pv.py:72-86). -/
structure Opts where
  maxRatio : ℚ
  inPop : Bool
  N : ℕ

/-- What is shown: parameter versus SSE, or pairs of parameters. -/
inductive Fig where
  | sse (columns : ℕ) (subplots : List Subplot)
  | pairs (ps : List (ℕ × ℕ × ℚ))
  deriving DecidableEq

/-- How the program ends: with the figures shown, or with a RuntimeError (ade/scripts/pv.py:94, 115) or an exception from
plotting. -/
inductive Result where
  | shown (figs : List Fig)
  | noFile
  | noAnalysis
  | failed
  deriving DecidableEq

/-- The loop over the names (ade/scripts/pv.py:108-111), with the figures so far and whether `pt` is set. -/
def namesLoop (a : An) (R : ℕ → ℕ → ℚ) (N : ℕ) : List String → List Fig × Bool → List Fig × Bool
  | [], r => r
  | name :: names, (figs, _) =>
    match plotCorrelated a.names R (some name) N with
    | none => namesLoop a R N names (figs, false)
    | some ps => namesLoop a R N names (figs ++ [.pairs ps], true)

/-- The part for `-N` (ade/scripts/pv.py:106-114). -/
def correlations (a : An) (R : ℕ → ℕ → ℚ) (N : ℕ) (names : List String) (r : List Fig × Bool) : List Fig × Bool :=
  if N = 0 then r
  else
    match names with
    | [] =>
      match plotCorrelated a.names R none N with
      | none => (r.1, false)
      | some ps => (r.1 ++ [.pairs ps], true)
    | _ => namesLoop a R N names r

/-- The end of `main` (ade/scripts/pv.py:115-116). `showAll` shows all figures made. -/
def finish (r : List Fig × Bool) : Result := if r.2 then .shown r.1 else .noAnalysis

/-- `main` (ade/scripts/pv.py:89-116) for the positional arguments and the analysis object of the loaded population. -/
def main (positional : List String) (o : Opts) (a : An) (R : ℕ → ℕ → ℚ) : Result :=
  match positional with
  | [] => .noFile
  | _ :: names =>
    if o.maxRatio = 0 then finish (correlations a R o.N names ([], false))
    else
      match plot a (names.map NameArg.name) o.inPop o.maxRatio with
      | none => .failed
      | some figs => finish (correlations a R o.N names (figs.map (fun f => .sse f.1 f.2), true))

end Pv
end Ade
