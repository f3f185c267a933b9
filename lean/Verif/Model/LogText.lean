import Mathlib.Data.List.Basic
import Mathlib.Data.List.Sort
import Mathlib.Data.Rat.Defs
import Mathlib.Algebra.Order.Ring.Rat

/-!
# What is printed about individuals and how the log grepper reads it

Model of

* `ParameterManager.stringValue`, `prettyValues`, `sortedNamerator` (ade/population.py:119-170),
  `Individual.__repr__` (ade/individual.py:94-100) and `Population.__repr__` (ade/population.py:626-660);
* `Grepper.filerator` (ade/scripts/lgg.py:225-294).

Texts are lists of ASCII characters; the separators `\x1c` to `\x1f`, white space to Python as well, and carriage
returns inside of lines do not occur.  A log file is the list of its lines without the newline; every line
is taken to end with a newline.

External contracts: `str.format` with `{:g}`, `{:.5g}` or `{:.4f}` is a given function from numbers to
texts, `float(text)` a given partial function from texts to numbers; `str.split`, `strip`, `join`,
padding as documented; `textwrap.TextWrapper(...).fill` puts as many words on a line as fit.  (It breaks a
word longer than the line; that is left out and excluded by the theorems that use it.)  Searching with the
two regular expressions is modelled by scanning; the scanner takes the longest run for each part, which
is the only possible match since no part's terminator is in the part's character class
(`Verif/Props/LogText.lean` proves that).
-/

set_option autoImplicit false

namespace Ade
namespace LogText

/-- A text. -/
abbrev Str := List Char

/-- `\s`, and what `str.split` and `str.strip` take for white space. -/
def isSpace (c : Char) : Bool :=
  c == ' ' || c == '\t' || c == '\n' || c == '\r' || c == '\x0b' || c == '\x0c'

/-- `[0-9\.e\E\-\+]` and `[\d\.eE\-\+]` (ade/scripts/lgg.py:207-210). `\E` is taken for `E`, as by Python up to version 3.5;
from 3.6 on the expression is rejected and the module cannot be imported. -/
def isNumChar (c : Char) : Bool :=
  c.isDigit || c == '.' || c == 'e' || c == 'E' || c == '-' || c == '+'

/-- `[_a-zA-Z0-9]` (ade/scripts/lgg.py:209). -/
def isNameChar (c : Char) : Bool := c.isAlphanum || c == '_'

/-- A parameter as found in a text: name, value and stars. -/
structure Item where
  name : Str
  value : Str
  stars : Str
  deriving DecidableEq

/-! ## Printing -/

/-- `sep.join(parts)`. -/
def join (sep : Str) : List Str → Str
  | [] => []
  | [w] => w
  | w :: w' :: ws => w ++ sep ++ join sep (w' :: ws)

/-- `{:>Ns}`. -/
def padLeft (n : ℕ) (s : Str) : Str := List.replicate (n - s.length) ' ' ++ s

/-- `{:Ns}`. -/
def padRight (n : ℕ) (s : Str) : Str := s ++ List.replicate (n - s.length) ' '

/-- The words put on one line of at most `width` characters, `len` of which are used, and the others. -/
def takeLine (width : ℕ) : ℕ → List Str → List Str × List Str
  | _, [] => ([], [])
  | len, w :: ws =>
    if len + 1 + w.length ≤ width then
      let r := takeLine width (len + 1 + w.length) ws
      (w :: r.1, r.2)
    else ([], w :: ws)

/-- Words grouped into lines as `TextWrapper.wrap` does it, for words that fit on a line.  (`fuel` is a
bound on the number of lines.) -/
def wrapAux (width : ℕ) : ℕ → List Str → List (List Str)
  | 0, _ => []
  | _, [] => []
  | fuel + 1, w :: ws =>
    let r := takeLine width w.length ws
    (w :: r.1) :: wrapAux width fuel r.2

/-- `self.fill(" ".join(words))` as a list of lines (ade/population.py:76, 149-150). -/
def fill (width : ℕ) (words : List Str) : List Str :=
  (wrapAux width words.length words).map (join [' '])

/-- `maxLineLength` (ade/population.py:74). -/
def maxLineLength : ℕ := 120

/-- What `ParameterManager` knows about one parameter. -/
structure Param where
  name : Str
  min : ℚ
  max : ℚ

/-- The suffix of `stringValue` (ade/population.py:125-126). -/
def suffix (p : Param) (v : ℚ) : Str :=
  let u := (v - p.min) / (p.max - p.min)
  if u < 1 / 20 then ['*'] else if 19 / 20 < u then ['*', '*'] else []

/-- `stringValue(k, value)` (ade/population.py:119-128), `fmt` being `{:g}`. -/
def stringValue (fmt : ℚ → Str) (p : Param) (v : ℚ) : Str := fmt v ++ suffix p v

/-- `stringValue(k, value, forColumn=True)`, `fmt5` being `{:.5g}`. -/
def columnValue (fmt5 : ℚ → Str) (p : Param) (v : ℚ) : Str :=
  padLeft 10 (fmt5 v) ++ padRight 2 (suffix p v)

/-- `name=value` with stars (ade/population.py:147). -/
def part (fmt : ℚ → Str) (pv : Param × ℚ) : Str := pv.1.name ++ ['='] ++ stringValue fmt pv.1 pv.2

/-- The order of texts: that of `sorted` for ASCII. -/
def strLe (a b : Str) : Prop := a ≤ b

instance : DecidableRel strLe := fun a b => inferInstanceAs (Decidable (a ≤ b))

/-- `sortedNamerator(values)` for distinct names (ade/population.py:152-170). -/
def sortedNamerator (pvs : List (Param × ℚ)) : List (Param × ℚ) :=
  pvs.insertionSort fun a b => strLe a.1.name b.1.name

/-- `prettyValues(values, prelude)` as lines (ade/population.py:130-150), the prelude given by its words.
(The call of `toUnity`, whose result is not used, is left out.) -/
def prettyValues (fmt : ℚ → Str) (prelude : List Str) (pvs : List (Param × ℚ)) : List Str :=
  fill maxLineLength (prelude ++ (sortedNamerator pvs).map (part fmt))

/-- `"<{}>".format(text)` for the lines of a text. -/
def bracket (lines : List Str) : List Str :=
  match lines with
  | [] => [['<', '>']]
  | l :: ls =>
    let open_ := ('<' :: l) :: ls
    open_.dropLast ++ (open_.getLast?.map (· ++ ['>'])).toList

/-- `SSE={:.4f}` (ade/individual.py:98-99). -/
def sseWord (sse : Str) : Str := ['S', 'S', 'E', '='] ++ sse

/-- `Individual.__repr__` (ade/individual.py:94-100), with the text of its SSE.  (The property `SSE` is
never `None`, so there always is a prelude.) -/
def reprIndividual (fmt : ℚ → Str) (sse : Str) (pvs : List (Param × ℚ)) : List Str :=
  bracket (prettyValues fmt [sseWord sse] pvs)

/-- `addRow` (ade/population.py:631-635). -/
def row (name : Str) (columns : List Str) : Str := join [' '] (padLeft 11 name :: ['|'] :: columns)

/-- A member as printed: the texts of its SSE for columns and for `repr`, and its values by name. -/
structure Member where
  sse5 : Str
  sse4 : Str
  val : Str → ℚ

/-- The parameters with their values. -/
def Member.pvs (params : List Param) (m : Member) : List (Param × ℚ) :=
  params.map fun p => (p, m.val p.name)

/-- `Population.__repr__` (ade/population.py:637-660) as lines.  `head` is the text of the first line;
`tops` are the best members in order, at most 7 of them; the first one is the best. -/
def reprPopulation (fmt fmt5 : ℚ → Str) (head : Str) (params : List Param) (tops : List Member)
    (best : Member) : List Str :=
  [head, [], row ['S', 'S', 'E'] (tops.map fun m => padLeft 10 m.sse5 ++ [' ', ' ']),
    List.replicate maxLineLength '-'] ++
  (params.insertionSort fun a b => strLe a.name b.name).map (fun p =>
    row p.name (tops.map fun m => columnValue fmt5 p (m.val p.name))) ++
  [List.replicate maxLineLength '-', "Best individual:".toList] ++ reprIndividual fmt best.sse4 (best.pvs params) ++ [[]]

/-! ## Reading -/

/-- `reSSE` at the beginning of a text (ade/scripts/lgg.py:207): the number's text and what follows. -/
def sseAt : Str → Option (Str × Str)
  | 'S' :: 'S' :: 'E' :: '=' :: rest =>
    let t := rest.takeWhile isNumChar
    if t = [] then none else some (t, rest.dropWhile isNumChar)
  | _ => none

/-- `reSSE.search(line)`. -/
def sseSearch : Str → Option (Str × Str)
  | [] => none
  | c :: s =>
    match sseAt (c :: s) with
    | some r => some r
    | none => sseSearch s

/-- `(\**)(\s|\>|$)`: the stars and what follows the terminator. -/
def starsAt (s : Str) : Option (Str × Str) :=
  match s.dropWhile (· == '*') with
  | [] => some (s.takeWhile (· == '*'), [])
  | c :: rest => if isSpace c || c == '>' then some (s.takeWhile (· == '*'), rest) else none

/-- `([\+\-]?[0-9][0-9\.e\E\-\+]*)`: the number's text and what follows. -/
def numberAt : Str → Option (Str × Str)
  | [] => none
  | c :: s =>
    if c == '+' || c == '-' then
      match s with
      | d :: s' =>
        if d.isDigit then some (c :: d :: s'.takeWhile isNumChar, s'.dropWhile isNumChar) else none
      | [] => none
    else if c.isDigit then some (c :: s.takeWhile isNumChar, s.dropWhile isNumChar)
    else none

/-- `([a-zA-Z]+[_a-zA-Z0-9]*)\=`: the name and what follows the equal sign. -/
def nameAt : Str → Option (Str × Str)
  | [] => none
  | c :: s =>
    if c.isAlpha then
      match s.dropWhile isNameChar with
      | '=' :: rest => some (c :: s.takeWhile isNameChar, rest)
      | _ => none
    else none

/-- `reParam` (ade/scripts/lgg.py:208-210) after its first group: the parameter and what follows. -/
def paramAt (s : Str) : Option (Item × Str) :=
  match nameAt s with
  | none => none
  | some (name, s1) =>
    match numberAt s1 with
    | none => none
    | some (value, s2) =>
      match starsAt s2 with
      | none => none
      | some (stars, rest) => some (⟨name, value, stars⟩, rest)

/-- `reParam` starting with a white space, anywhere. -/
def spaceSearch : Str → Option (Item × Str)
  | [] => none
  | c :: s =>
    if isSpace c then
      match paramAt s with
      | some r => some r
      | none => spaceSearch s
    else spaceSearch s

/-- `reParam.search(line)`: at the beginning or after a white space. -/
def paramSearch (s : Str) : Option (Item × Str) :=
  match paramAt s with
  | some r => some r
  | none => spaceSearch s

/-- The parameters found by searching repeatedly in what follows the last match
(ade/scripts/lgg.py:243-258, 288-293); `fuel` bounds their number. -/
def paramsAux : ℕ → Str → List Item
  | 0, _ => []
  | fuel + 1, s =>
    match paramSearch s with
    | none => []
    | some (i, rest) => i :: paramsAux fuel rest

/-- All parameters in a line. -/
def params (s : Str) : List Item := paramsAux s.length s

/-- A Python dict from names to values and stars, as the list of its items. -/
abbrev PD := List Item

/-- `pd[name] = svalue, stars` (ade/scripts/lgg.py:257). -/
def put (pd : PD) (i : Item) : PD :=
  if pd.any fun j => j.name == i.name then pd.map fun j => if j.name == i.name then i else j else pd ++ [i]

/-- `pd[name]`. -/
def get (pd : PD) (name : Str) : Option Item := pd.find? fun j => j.name == name

/-- Adding all parameters in a line. -/
def addLine (pd : PD) (s : Str) : PD := (params s).foldl put pd

/-- `str.strip`. -/
def strip (s : Str) : Str := ((s.dropWhile isSpace).reverse.dropWhile isSpace).reverse

/-- What a generator has yielded, and whether an exception ended it. -/
@[ext] structure Out (F : Type) where
  yields : List (F × PD)
  failed : Bool
  deriving DecidableEq

/-- Yielding first. -/
def Out.cons {F : Type} (e : F × PD) (o : Out F) : Out F := ⟨e :: o.yields, o.failed⟩

variable {F : Type}

/-- The first part of `filerator` (ade/scripts/lgg.py:234-258): `cur` is the entry being read.  At the end
of the file `readline` returns an empty text, which ends the entry. -/
def entries (float : Str → Option F) : Option (F × PD) → List Str → Out F
  | none, [] => ⟨[], false⟩
  | some e, [] => ⟨[e], false⟩
  | none, l :: ls =>
    match sseSearch (l ++ ['\n']) with
    | none => entries float none ls
    | some (t, rest) =>
      match float t with
      | none => ⟨[], true⟩
      | some v => entries float (some (v, addLine [] rest)) ls
  | some (v, pd), l :: ls =>
    if strip l = [] then (entries float none ls).cons (v, pd)
    else entries float (some (v, addLine pd (strip l))) ls

/-- `text.split()`; `cur` is the word being read, reversed. -/
def splitAux : Str → Str → List Str
  | cur, [] => if cur = [] then [] else [cur.reverse]
  | cur, c :: s =>
    if isSpace c then (if cur = [] then splitAux [] s else cur.reverse :: splitAux [] s)
    else splitAux (c :: cur) s

/-- `text.split()`. -/
def split (s : Str) : List Str := splitAux [] s

/-- `text.split('|')`; `cur` is the part being read, reversed. -/
def splitBarAux : Str → Str → List Str
  | cur, [] => [cur.reverse]
  | cur, c :: s => if c == '|' then cur.reverse :: splitBarAux [] s else splitBarAux (c :: cur) s

/-- `text.split('|')`. -/
def splitBar (s : Str) : List Str := splitBarAux [] s

/-- The table of the final population: SSE texts, and value texts for each name in order of rows; `none` for
an exception. -/
abbrev Table := List Str × List (Str × List Str)

/-- `params[name] = values.split()`. -/
def putRow (rows : List (Str × List Str)) (name : Str) (vs : List Str) : List (Str × List Str) :=
  if rows.any fun r => r.1 == name then rows.map fun r => if r.1 == name then (name, vs) else r
  else rows ++ [(name, vs)]

/-- Rows of the table (ade/scripts/lgg.py:279-283). -/
def tableRows (sses : List Str) : List (Str × List Str) → List Str → Option Table
  | rows, [] => some (sses, rows)
  | rows, l :: ls =>
    let s := strip l
    if ['-', '-'].isPrefixOf s then
      if rows = [] then tableRows sses rows ls else some (sses, rows)
    else match splitBar s with
      | [name, vs] => tableRows sses (putRow rows (strip name) (split (strip vs))) ls
      | _ => none

/-- Looking for the line with the SSEs (ade/scripts/lgg.py:274-278). -/
def tableHead : List Str → Option Table
  | [] => some ([], [])
  | l :: ls =>
    if ['S', 'S', 'E'].isPrefixOf (strip l) then
      match splitBar (strip l) with
      | _ :: sses :: _ => tableRows (split sses) [] ls
      | _ => none
    else tableHead ls

/-- Looking for the final population (ade/scripts/lgg.py:260-273). -/
def findTable : List Str → Option Table
  | [] => some ([], [])
  | l :: ls =>
    if "Final population".toList.isPrefixOf (strip l) then tableHead ls else findTable ls

/-- The line made for the column `k` of the table (ade/scripts/lgg.py:286-287); `none` if a row is too
short. -/
def columnLine (rows : List (Str × List Str)) (k : ℕ) : Option Str :=
  (rows.mapM fun r => (r.2[k]?).map fun v => r.1 ++ ['='] ++ v).map (join [' '])

/-- The entries of the table (ade/scripts/lgg.py:284-294). -/
def columns (float : Str → Option F) (rows : List (Str × List Str)) : ℕ → List Str → Out F
  | _, [] => ⟨[], false⟩
  | k, sse :: sses =>
    match columnLine rows k, float sse with
    | some line, some v => (columns float rows (k + 1) sses).cons (v, addLine [] line)
    | _, _ => ⟨[], true⟩

/-- `filerator()` (ade/scripts/lgg.py:225-294). -/
def filerator (float : Str → Option F) (file : List Str) : Out F :=
  let e := entries float none file
  if e.failed then e
  else match findTable file with
    | none => ⟨e.yields, true⟩
    | some (sses, rows) =>
      let c := columns float rows 0 sses
      ⟨e.yields ++ c.yields, c.failed⟩

end LogText
end Ade
