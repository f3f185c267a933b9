import Mathlib.Algebra.Order.Field.Rat
import Mathlib.Data.List.Basic

/-!
# Model: specs files

`ade/specs.py`: `DictStacker`, `Specs` and `SpecsLoader`. Texts are lists of ASCII characters; the file is
given as its lines. Numbers are exact (`float(value)` without rounding and overflow). Attribute names
that clash with the methods of `Specs` or with its attribute `ds` are not considered. The exception that
ends the reading is a value.
-/

set_option autoImplicit false

namespace Ade
namespace Specs

/-- A text. -/
abbrev Str := List Char

/-- White space as understood by `str.strip` and `str.split` (ASCII). -/
def isSpace (c : Char) : Bool :=
  c = ' ' || c = '\t' || c = '\n' || c = '\r' || c = '\x0b' || c = '\x0c' || c = '\x1c' ||
    c = '\x1d' || c = '\x1e' || c = '\x1f'

/-- `0`-`9`. -/
def isDigit (c : Char) : Bool := '0' ≤ c && c ≤ '9'

/-- `str.strip()`. -/
def strip (s : Str) : Str := ((s.dropWhile isSpace).reverse.dropWhile isSpace).reverse

/-- `str.split()`: `w` is the word being read. -/
def splitAux : Str → Str → List Str
  | w, [] => if w = [] then [] else [w]
  | w, c :: s =>
    if isSpace c then if w = [] then splitAux [] s else w :: splitAux [] s
    else splitAux (w ++ [c]) s

/-- `str.split()`. -/
def split (s : Str) : List Str := splitAux [] s

/-- `str.split(':')`: `w` is the part being read. -/
def splitColonAux : Str → Str → List Str
  | w, [] => [w]
  | w, c :: s => if c = ':' then w :: splitColonAux [] s else splitColonAux (w ++ [c]) s

/-- `str.split(':')`. -/
def splitColon (s : Str) : List Str := splitColonAux [] s

/-- `str.lower()`. -/
def lower (s : Str) : Str := s.map fun c => if 'A' ≤ c && c ≤ 'Z' then Char.ofNat (c.toNat + 32) else c

/-- `str.rstrip(',')`. -/
def rstripComma (s : Str) : Str := (s.reverse.dropWhile (· = ',')).reverse

/-- The value of a digit. -/
def digit (c : Char) : ℕ := c.toNat - '0'.toNat

/-- The number written with the given digits. -/
def ofDigits (s : Str) : ℕ := s.foldl (fun n c => 10 * n + digit c) 0

/-- A key of a dict: a text or an integer. -/
inductive Key where
  | name (s : Str)
  | int (n : ℕ)
  deriving DecidableEq

/-- `bool(key)`. -/
def Key.truthy : Key → Bool
  | .name s => s ≠ []
  | .int n => n ≠ 0

/-- A single value (ade/specs.py:196-209). -/
inductive Scalar where
  | none
  | bool (b : Bool)
  | num (q : ℚ)
  | str (s : Str)
  deriving DecidableEq

/-- What is stored under a name or key: a single value, a list, or a dict. A dict is a list of entries
with distinct keys. -/
inductive Tree where
  | leaf (v : Scalar)
  | seq (xs : List Tree)
  | dict (es : List (Key × Tree))

/-- Exceptions. -/
inductive Err where
  | valueError
  | typeError
  | attributeError
  | indexError
  | unboundLocalError
  deriving DecidableEq

/-- `dct[key]` of a dict, if there is such an entry. -/
def lookup (es : List (Key × Tree)) (k : Key) : Option Tree :=
  match es with
  | [] => none
  | (k', t) :: es => if k' = k then some t else lookup es k

/-- `dct[key] = value`. -/
def put (es : List (Key × Tree)) (k : Key) (t : Tree) : List (Key × Tree) :=
  match es with
  | [] => [(k, t)]
  | (k', t') :: es => if k' = k then (k, t) :: es else (k', t') :: put es k t

/-- `DictStacker.add` (ade/specs.py:44-56): `k` is the first key and `ks` are the others. An object found
on the way that is not a dict has no `setdefault`; a list accepts an integer in its range as its last
key, other objects accept none. -/
def stack (es : List (Key × Tree)) (k : Key) (ks : List Key) (v : Tree) :
    Except Err (List (Key × Tree)) :=
  match ks with
  | [] => .ok (put es k v)
  | k' :: ks' =>
    match lookup es k with
    | none => do
      let sub ← stack [] k' ks' v
      return put es k (.dict sub)
    | some (.dict sub) => do
      let sub ← stack sub k' ks' v
      return put es k (.dict sub)
    | some (.seq xs) =>
      match ks', k' with
      | _ :: _, _ => .error .attributeError
      | [], .name _ => .error .typeError
      | [], .int i => if i < xs.length then .ok (put es k (.seq (xs.set i v))) else .error .indexError
    | some (.leaf _) =>
      match ks' with
      | _ :: _ => .error .attributeError
      | [] => .error .typeError

/-- The part of `Specs.get` that works on a dict (ade/specs.py:143-156). -/
def getIn (es : List (Key × Tree)) (k : Key) : List Key → Tree
  | [] =>
    match lookup es k with
    | none => .dict []
    | some t => t
  | k' :: ks' =>
    match lookup es k with
    | none => .dict []
    | some (.dict sub) => getIn sub k' ks'
    | some t => t

/-- `Specs.get` (ade/specs.py:130-156) with a first name and further ones. The attributes are kept like the
entries of a dict, with texts as keys; an integer as the first name is a `TypeError` of `getattr`. -/
def get (attrs : List (Key × Tree)) (first : Key) (names : List Key) : Except Err Tree :=
  match first with
  | .int _ => .error .typeError
  | .name _ => .ok (getIn attrs first names)

/-- An optional sign and what follows it. -/
def takeSign : Str → Bool × Str
  | '+' :: s => (false, s)
  | '-' :: s => (true, s)
  | s => (false, s)

/-- The exponent part of a number, to the end of the text (ade/specs.py:172). -/
def parseExp : Str → Option ℤ
  | [] => some 0
  | c :: s =>
    if c ≠ 'e' then none
    else
      let (neg, s) := takeSign s
      if s ≠ [] && s.all isDigit then some (if neg then -(ofDigits s : ℤ) else ofDigits s) else none

/-- The digits after the point, if there is a point, and the rest of the text (ade/specs.py:172). -/
def parseFrac : Str → Option (Str × Str)
  | [] => some ([], [])
  | c :: s =>
    if c ≠ '.' then some ([], c :: s)
    else if s.takeWhile isDigit = [] then none
    else some (s.takeWhile isDigit, s.dropWhile isDigit)

/-- A text that matches `reNum` (ade/specs.py:172), as the number `float` makes of it. -/
def parseNum (s : Str) : Option ℚ :=
  let (neg, s) := takeSign s
  let ds := s.takeWhile isDigit
  if ds = [] then none
  else
    match parseFrac (s.dropWhile isDigit) with
    | none => none
    | some (fs, s) =>
      match parseExp s with
      | none => none
      | some e =>
        let m : ℚ := (ofDigits (ds ++ fs) : ℚ) / 10 ^ fs.length * 10 ^ e
        some (if neg then -m else m)

/-- `parseValue` (ade/specs.py:196-209). -/
def parseValue (value : Str) : Scalar :=
  let value := lower value
  if value = "none".toList then .none
  else if value = "true".toList then .bool true
  else if value = "false".toList then .bool false
  else
    match parseNum value with
    | some q => .num q
    | none => .str value

/-- A part of a name (ade/specs.py:188-193): an integer if it consists of digits. -/
def parsePart (part : Str) : Key :=
  let part := strip part
  if part ≠ [] && part.all isDigit then .int (ofDigits part) else .name part

/-- `parseName` on the first token (ade/specs.py:177-194). -/
def parseName (first : Str) : List Key := (splitColon (first.filter (· ≠ '\''))).map parsePart

/-- The values of a line from its tokens after the name (ade/specs.py:251-263). -/
def parseValues (tokens : List Str) : Tree :=
  let seq := (tokens.takeWhile fun t => t.head? ≠ some '#').map fun t => parseValue (rstripComma t)
  match seq with
  | [v] => .leaf v
  | _ => .seq (seq.map Tree.leaf)

/-- The `Specs` object and the local variables of `read` (ade/specs.py:101-128, 218-219): attributes, the
dict being defined (`dictDef`), `dictName`. -/
structure St where
  attrs : List (Key × Tree)
  building : Option (Key × List (Key × Tree))
  dictName : Option Key

/-- `Specs.add` (ade/specs.py:124-128): `setattr` needs a text. -/
def addAttr (st : St) (k : Key) (t : Tree) : Except Err St :=
  match k with
  | .int _ => .error .typeError
  | .name _ => .ok { st with attrs := put st.attrs k t }

/-- A line of hyphens (ade/specs.py:224-240). -/
def hyphens (st : St) : Except Err St :=
  match st.building with
  | some (name, es) => do
    let st ← addAttr st name (.dict es)
    return { st with building := none, dictName := none }
  | none =>
    match st.dictName with
    | none => .error .valueError
    | some name => if name.truthy then .ok { st with building := some (name, []) } else .error .valueError

/-- Setting the attribute or entry with the given name parts (ade/specs.py:264-271). -/
def store (st : St) (parts : List Key) (v : Tree) : Except Err St :=
  match st.building, parts with
  | some (name, es), k :: ks => do
    let es ← stack es k ks v
    return { st with building := some (name, es) }
  | none, k :: _ => addAttr st k v
  | _, [] => .ok st

/-- Setting the attribute or entry with the given name parts to the value of the tokens, of which the
first may be an equals sign (ade/specs.py:251-271). -/
def assign (st : St) (parts : List Key) (tokens : List Str) : Except Err St :=
  match tokens with
  | [] => .error .indexError
  | t :: ts => store st parts (parseValues (if t = ['='] then ts else t :: ts))

/-- A line with a name and possibly values (ade/specs.py:241-271). -/
def entry (st : St) (first : Str) (tokens : List Str) : Except Err St :=
  let parts := parseName first
  match st.building with
  | some _ => assign st parts tokens
  | none =>
    if 1 < parts.length then .error .valueError
    else if tokens = [] then .ok { st with dictName := parts.head? }
    else assign st parts tokens

/-- One turn of the loop in `read` (ade/specs.py:220-271). -/
def readLine (st : St) (line : Str) : Except Err St :=
  let line := strip line
  match line with
  | [] => .ok st
  | '#' :: _ => .ok st
  | '-' :: '-' :: _ => hyphens st
  | _ =>
    match split line with
    | [] => .ok st
    | first :: tokens => entry st first tokens

/-- `read` on the lines of a file and a new `Specs` object (ade/specs.py:211-272). Without any line, the
variable `k` in `return k+1` is not set. -/
def read (lines : List Str) : Except Err St :=
  if lines = [] then .error .unboundLocalError
  else lines.foldlM readLine ⟨[], none, none⟩

end Specs
end Ade
