import Verif.Model.LggNames

/-!
# The log grepper as a whole

Model of the script `lgg`: `main` (ade/scripts/lgg.py:391-409), `Grepper.__call__` and `load`
(ade/scripts/lgg.py:325-339, 385-388), using the models of reading (`Verif/Model/LogText.lean`), of the selection of names
and of the table (`Verif/Model/LggNames.lean`) and of the trimming (`Verif/Model/Lgg.lean`).

External contracts: `os.path.expanduser` is a given function from texts to texts; the file system is a partial function
from paths to lists of lines; `np.argsort` is a given function (the theorems ask for ascending scores in some order of
the rows); `np.min` of an empty array raises an exception.
-/

set_option autoImplicit false

namespace Ade
namespace LggMain
open LogText LggNames

/-- What `trim` looks at in a row. -/
def plain (r : TRow) : Lgg.Row := ⟨r.sse, r.values⟩

/-- The loop of `trim` over `K[1:]` with its default arguments (ade/scripts/lgg.py:185-193), for complete rows. -/
def trimLoop (best : ℚ) (last : TRow) : List TRow → List TRow
  | [] => []
  | r :: rs =>
    if 2 * best < r.sse then []
    else if Lgg.differs (1 / 100) (plain r) (plain last) then r :: trimLoop best r rs
    else trimLoop best last rs

/-- `trim()` (ade/scripts/lgg.py:156-197) for rows in the order of `np.argsort(self.SSE)`; `none` for the exception that
`np.min` raises without rows. -/
def trim : List TRow → Option (List TRow)
  | [] => none
  | r :: rs => some (Lgg.sliceLast 40 (r :: trimLoop r.sse r rs)).reverse

/-- How the script ends. -/
inductive Outcome where
  /-- `RuntimeError`: no log file (ade/scripts/lgg.py:402-403). -/
  | noFile
  /-- An exception in the constructor of `Grepper`, which is not caught (ade/scripts/lgg.py:404). -/
  | raised
  /-- An exception that is caught: a traceback is printed and the debugger started (ade/scripts/lgg.py:406-409). -/
  | traceback
  /-- The lines of the table are printed (ade/scripts/lgg.py:388). -/
  | table (lines : List Str)
  deriving DecidableEq

/-- The default name of the log file (ade/scripts/lgg.py:400). -/
def defaultFile : Str := "~/pfinder.log".toList

/-- The name of the log file and the other arguments (ade/scripts/lgg.py:395-400). -/
def splitArgs : List Str → Str × List Str
  | [] => (defaultFile, [])
  | a :: rest => if '.' ∈ a then (a, rest) else (defaultFile, a :: rest)

/-- `Grepper.__init__` (ade/scripts/lgg.py:212-223): the names shown.  With patterns only the first entry is read; without
them all of the file is read, so that any exception of `filerator` shows up. -/
def construct (o : Out ℚ) (patterns : List Str) : Option (List Str) :=
  if patterns = [] && o.failed then none else (selected o.yields patterns).map setupNames

/-- `Grepper.__call__` (ade/scripts/lgg.py:325-339, 385-388). -/
def call (float : Str → Option ℚ) (fmt : ℚ → Str) (argsort : List TRow → List TRow) (o : Out ℚ) (names : List Str) :
    Outcome :=
  if o.failed then .traceback
  else match load float names o.yields with
    | none => .traceback
    | some rows =>
      match trim (argsort rows) with
      | none => .traceback
      | some kept => .table (makeLines fmt names kept)

/-- `main()` (ade/scripts/lgg.py:391-409). -/
def main (float : Str → Option ℚ) (fmt : ℚ → Str) (argsort : List TRow → List TRow) (expanduser : Str → Str)
    (files : Str → Option (List Str)) (argv : List Str) : Outcome :=
  let a := splitArgs argv
  match files (expanduser a.1) with
  | none => .noFile
  | some file =>
    let o := filerator float file
    match construct o a.2 with
    | none => .raised
    | some names => call float fmt argsort o names

end LggMain
end Ade
