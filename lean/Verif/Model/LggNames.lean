import Verif.Model.LogText
import Verif.Model.Lgg
import Mathlib.Data.List.Lex
import Mathlib.Data.Char

/-!
# Which parameters the log grepper shows, and its table

Model of `RowManager.setupNames` (ade/scripts/lgg.py:66-97), `Grepper.__init__`, `globNames`, `load`, `rj`
and `makeLines` (ade/scripts/lgg.py:212-223, 317-383).

External contracts: `fnmatch.filter` matches as its documentation says (`*`, `?`, `[...]`, `[!...]`; a range
with its ends the wrong way round matches nothing); `int` and `str` of natural numbers in decimal; `float` and
the format `{:0.5g}` are given functions.

Left out: a newline at the end of a command line argument.
-/

set_option autoImplicit false

namespace Ade
namespace LggNames
open LogText

/-! ## Glob patterns -/

/-- An item between brackets. -/
inductive ClassItem where
  | single (c : Char)
  | range (a b : Char)
  deriving DecidableEq

/-- A character is in it. -/
def ClassItem.has (x : Char) : ClassItem → Bool
  | .single c => x == c
  | .range a b => decide (a ≤ x) && decide (x ≤ b)

/-- A part of a glob pattern. -/
inductive Tok where
  | star
  | any
  | lit (c : Char)
  | set (neg : Bool) (items : List ClassItem)
  deriving DecidableEq

/-- The part (other than a star) matches a character. -/
def Tok.ok (x : Char) : Tok → Bool
  | .star => false
  | .any => true
  | .lit c => x == c
  | .set neg items => items.any (ClassItem.has x) != neg

/-- The items between brackets. -/
def classItems : ℕ → Str → List ClassItem
  | 0, _ => []
  | _, [] => []
  | fuel + 1, a :: '-' :: b :: s => .range a b :: classItems fuel s
  | fuel + 1, c :: s => .single c :: classItems fuel s

/-- What follows an opening bracket: the text up to the closing bracket and the rest, or `none` if there is
no closing bracket.  (A closing bracket in the first place is part of the text.) -/
def bracketText (s : Str) : Option (Str × Str) :=
  let (first, s') := match s with
    | ']' :: s' => ([']'], s')
    | s => ([], s)
  match s'.dropWhile (· != ']') with
  | [] => none
  | _ :: rest => some (first ++ s'.takeWhile (· != ']'), rest)

/-- The parts of a glob pattern (`fnmatch.translate`). -/
def parseGlob : ℕ → Str → List Tok
  | 0, _ => []
  | _, [] => []
  | fuel + 1, '*' :: s => .star :: parseGlob fuel s
  | fuel + 1, '?' :: s => .any :: parseGlob fuel s
  | fuel + 1, '[' :: s =>
    let (neg, s') := match s with
      | '!' :: s' => (true, s')
      | s => (false, s)
    match bracketText s' with
    | none => .lit '[' :: parseGlob fuel s
    | some (text, rest) => .set neg (classItems text.length text) :: parseGlob fuel rest
  | fuel + 1, c :: s => .lit c :: parseGlob fuel s

/-- Matching. -/
def globMatch : List Tok → Str → Bool
  | [], s => s.isEmpty
  | .star :: ts, s => s.tails.any (globMatch ts)
  | _ :: _, [] => false
  | t :: ts, c :: s => t.ok c && globMatch ts s

/-- `fnmatch.fnmatch(name, pattern)`. -/
def fnmatch (pattern name : Str) : Bool := globMatch (parseGlob pattern.length pattern) name

/-- `sorted(names)`. -/
def sorted (names : List Str) : List Str := names.insertionSort strLe

/-- `globNames(pattern)` (ade/scripts/lgg.py:317-323) for what the log yields; `None` if it yields
nothing. -/
def globNames {F : Type} (yields : List (F × PD)) (pattern : Str) : Option (List Str) :=
  yields.head?.map fun e => (sorted (e.2.map Item.name)).filter (fnmatch pattern)

/-- Adding names not there yet (ade/scripts/lgg.py:219-221). -/
def addNew (names new : List Str) : List Str :=
  new.foldl (fun names n => if n ∈ names then names else names ++ [n]) names

/-- The entries as `starredNames` uses them. -/
def starEntry (e : ℚ × PD) : Lgg.Entry Str := ⟨e.1, e.2.map fun i => (i.name, i.stars.length)⟩

/-- The names selected in `Grepper.__init__` (ade/scripts/lgg.py:212-222); `none` for a `TypeError`
(iterating over `None`). -/
def selected (yields : List (ℚ × PD)) (args : List Str) : Option (List Str) :=
  if args = [] then some (Lgg.starredNames 4 (yields.map starEntry))
  else (args.mapM (globNames yields)).map fun found => sorted (found.foldl addNew [])

/-! ## Ranges -/

/-- `reNumRange.match(name)` (ade/scripts/lgg.py:66): prefix and the two numbers.  The prefix is the
shortest possible one; the text in front of the dash is given from its second character on. -/
def numSplit : Str → Str → Option (Str × Str)
  | _, [] => none
  | p, d :: ds =>
    if (d :: ds).all Char.isDigit then some (p, d :: ds)
    else if isNameChar d then numSplit (p ++ [d]) ds
    else none

/-- `reNumRange.match(name)`. -/
def numRange (name : Str) : Option (Str × Str × Str) :=
  match name.takeWhile (· != '-'), name.dropWhile (· != '-') with
  | c :: a, _ :: b =>
    if isNameChar c && !b.isEmpty && b.all Char.isDigit then
      (numSplit [c] a).map fun x => (x.1, x.2, b)
    else none
  | _, _ => none

/-- `reLetterRange.match(name)` (ade/scripts/lgg.py:67): prefix and the two letters. -/
def letterRange (name : Str) : Option (Str × Char × Char) :=
  match (name.takeWhile (· != '-')).reverse, name.dropWhile (· != '-') with
  | c :: a, [_, d] =>
    if !a.isEmpty && a.all isNameChar && c.isLower && d.isLower then some (a.reverse, c, d) else none
  | _, _ => none

/-- `range(n1, n2+1)` as texts (ade/scripts/lgg.py:83-84). -/
def numTexts (n1 n2 : Str) : List Str :=
  let a := Nat.ofDigitChars 10 n1 0
  let b := Nat.ofDigitChars 10 n2 0
  (List.range' a (b + 1 - a)).map (Nat.toDigits 10)

/-- `letters[letters.index(c1):letters.index(c2)+1]` (ade/scripts/lgg.py:86-88). -/
def letterTexts (c d : Char) : List Str :=
  (List.range' c.toNat (d.toNat + 1 - c.toNat)).map fun k => [Char.ofNat k]

/-- The names for one name (ade/scripts/lgg.py:73-80, 92-96). -/
def expand (name : Str) : List Str :=
  match numRange name with
  | some (p, n1, n2) => (numTexts n1 n2).map (p ++ ·)
  | none =>
    match letterRange name with
    | some (p, c, d) => (letterTexts c d).map (p ++ ·)
    | none => [name]

/-- `setupNames(names)` (ade/scripts/lgg.py:82-96): `self.names`. -/
def setupNames (names : List Str) : List Str := names.flatMap expand

/-! ## The table -/

/-- A row as loaded. -/
structure TRow where
  sse : ℚ
  values : List ℚ
  stars : List ℕ
  deriving DecidableEq

/-- Value and stars of a name (ade/scripts/lgg.py:332-335); `none` for an exception. -/
def cell (float : Str → Option ℚ) (pd : PD) (name : Str) : Option (ℚ × ℕ) :=
  match get pd name with
  | none => none
  | some i => (float i.value).map fun v => (v, i.stars.length)

/-- One row. -/
def loadRow (float : Str → Option ℚ) (names : List Str) (e : ℚ × PD) : Option TRow :=
  (names.mapM (cell float e.2)).map fun cs => ⟨e.1, cs.map Prod.fst, cs.map Prod.snd⟩

/-- `load` up to the trimming (ade/scripts/lgg.py:325-337). -/
def load (float : Str → Option ℚ) (names : List Str) (yields : List (ℚ × PD)) : Option (List TRow) :=
  yields.mapM (loadRow float names)

/-- `width` and `colSep` (ade/scripts/lgg.py:204-205). -/
def width : ℕ := 10
def colSep : ℕ := 3

/-- `rj` (ade/scripts/lgg.py:341-354). -/
def rj (s : Str) : Str := padLeft width s

/-- The heading (ade/scripts/lgg.py:365-368). -/
def heading (names : List Str) : Str :=
  join (List.replicate colSep ' ') (rj ['S', 'S', 'E'] :: names.map rj)

/-- `str.rstrip`. -/
def rstripped (s : Str) : Str := (s.reverse.dropWhile isSpace).reverse

/-- A value with its stars (ade/scripts/lgg.py:376-379). -/
def cellLine (fmt : ℚ → Str) (v : ℚ) (stars : ℕ) : Str :=
  rj (fmt v) ++ padRight colSep (List.replicate stars '*')

/-- A row of the table (ade/scripts/lgg.py:372-381). -/
def rowLine (fmt : ℚ → Str) (r : TRow) : Str :=
  rstripped (rj (fmt r.sse) ++ List.replicate colSep ' ' ++
    (List.zipWith (cellLine fmt) r.values r.stars).flatten)

/-- `makeLines` (ade/scripts/lgg.py:356-383). -/
def makeLines (fmt : ℚ → Str) (names : List Str) (rows : List TRow) : List Str :=
  [[], heading names, List.replicate ((heading names).length + 2) '-'] ++ rows.map (rowLine fmt) ++ [[]]

end LggNames
end Ade
