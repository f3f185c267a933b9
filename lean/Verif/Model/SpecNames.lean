import Verif.Model.Specs

/-!
# Names of specifications and the methods of the object that holds them

`Verif.Model.Specs` keeps the attributes of a `Specs` object apart from its methods and from its attribute `ds`.  In the code
(ade/specs.py:65-156) they share one name space: an attribute set by the file hides the method of that name.  This module models the
reading and the lookup with the one name space, and the loading of a file (ade/specs.py:274-286).

Simplification: names that begin with two underscores, which Python gives a meaning of its own, are not considered.
-/

set_option autoImplicit false

namespace Ade
namespace SpecNames

open Specs

/-- A name of an attribute. -/
def nm (s : String) : Key := .name s.toList

/-- The methods of `Specs` (ade/specs.py:101, 108, 115, 124, 130). -/
def methods : List String := ["dict_start", "dict_add", "dict_done", "add", "get"]

/-- `s.method`: an attribute set on the object hides the method, and is none of the things that can be called. -/
def hidden (st : St) (method : String) : Bool := (lookup st.attrs (nm method)).isSome

/-- `del self.name` and the replacing of an attribute by something else than a value. -/
def erase (es : List (Key × Tree)) (k : Key) : List (Key × Tree) := es.filter fun e => e.1 ≠ k

/-- `s.add(name, value)` or `self.add(name, value)` (ade/specs.py:124-128). -/
def addAttr (st : St) (k : Key) (t : Tree) : Except Err St :=
  if hidden st "add" then .error .typeError else Specs.addAttr st k t

/-- `s.dict_start(name)` (ade/specs.py:101-106): the attribute `ds` becomes the `DictStacker`. -/
def dictStart (st : St) (name : Key) : Except Err St :=
  if hidden st "dict_start" then .error .typeError
  else .ok { st with attrs := erase st.attrs (nm "ds"), building := some (name, []) }

/-- `s.dict_done()` (ade/specs.py:115-122): the attribute `ds` is deleted after the dict has been added, whatever it is then. -/
def dictDone (st : St) (name : Key) (es : List (Key × Tree)) : Except Err St :=
  if hidden st "dict_done" then .error .typeError
  else do
    let st ← addAttr st name (.dict es)
    return { attrs := erase st.attrs (nm "ds"), building := none, dictName := none }

/-- A line of hyphens (ade/specs.py:224-240). -/
def hyphens (st : St) : Except Err St :=
  match st.building with
  | some (name, es) => dictDone st name es
  | none =>
    match st.dictName with
    | none => .error .valueError
    | some name => if name.truthy then dictStart st name else .error .valueError

/-- `s.dict_add` or `s.add` (ade/specs.py:264-271). -/
def store (st : St) (parts : List Key) (v : Tree) : Except Err St :=
  match st.building, parts with
  | some (name, es), k :: ks =>
    if hidden st "dict_add" then .error .typeError
    else do
      let es ← stack es k ks v
      return { st with building := some (name, es) }
  | none, k :: _ => addAttr st k v
  | _, [] => .ok st

/-- The value of the tokens, of which the first may be an equals sign, is stored (ade/specs.py:251-271). -/
def assign (st : St) (parts : List Key) (tokens : List Str) : Except Err St :=
  match tokens with
  | [] => .error .indexError
  | t :: ts => store st parts (parseValues (if t = ['='] then ts else t :: ts))

/-- A line with a name and possibly values (ade/specs.py:241-271). -/
def entry (st : St) (first : Str) (tokens : List Str) : Except Err St :=
  let parts := parseName first
  match st.building with
  | some _ => assign st parts tokens
  | none =>
    if 1 < parts.length then .error .valueError
    else if tokens = [] then .ok { st with dictName := parts.head? }
    else assign st parts tokens

/-- What the reader takes a line for (ade/specs.py:220-242). -/
inductive Line where
  | skip
  | rule
  | words (first : Str) (tokens : List Str)

/-- What the reader takes a line for (ade/specs.py:220-242). -/
def lineOf (line : Str) : Line :=
  match strip line with
  | [] => .skip
  | '#' :: _ => .skip
  | '-' :: '-' :: _ => .rule
  | s =>
    match split s with
    | [] => .skip
    | first :: tokens => .words first tokens

/-- One turn of the loop in `read` (ade/specs.py:220-271). -/
def act (st : St) : Line → Except Err St
  | .skip => .ok st
  | .rule => hyphens st
  | .words first tokens => entry st first tokens

/-- `read` on the lines of a file and a new object (ade/specs.py:211-272): the object and the number of lines. -/
def read (lines : List Str) : Except Err (St × ℕ) :=
  if lines = [] then .error .unboundLocalError
  else (lines.foldlM (fun st l => act st (lineOf l)) ⟨[], none, none⟩).map fun st => (st, lines.length)

/-- What a lookup gives: a value, a method of the object, or the `DictStacker` of a dict that was not finished. -/
inductive Found where
  | tree (t : Tree)
  | method
  | stacker

/-- `getattr(self, first, {})` and the rest of `get` (ade/specs.py:130-156), for a name as first argument. -/
def find (st : St) (first : Str) (names : List Key) : Found :=
  match lookup st.attrs (.name first) with
  | some _ => .tree (getIn st.attrs (.name first) names)
  | none =>
    if first = "ds".toList ∧ st.building.isSome then .stacker
    else if first ∈ methods.map String.toList then .method
    else .tree (.dict [])

/-- `s.get(first, *names)` (ade/specs.py:130-156). -/
def get (st : St) (first : Key) (names : List Key) : Except Err Found :=
  if hidden st "get" then .error .typeError
  else
    match first with
    | .int _ => .error .typeError
    | .name n => .ok (find st n names)

/-- How loading ends: `OSError`, an exception of the reader, or the object and the message about the number of lines. -/
inductive Loaded where
  | osError
  | raised (e : Err)
  | loaded (st : St) (lines : ℕ)

/-- `SpecsLoader.__call__` (ade/specs.py:274-286): `none` is a file that does not exist. -/
def load (file : Option (List Str)) : Loaded :=
  match file with
  | none => .osError
  | some lines =>
    match read lines with
    | .error e => .raised e
    | .ok (st, n) => .loaded st n

end SpecNames
end Ade
