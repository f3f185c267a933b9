import Verif.Model.Util

/-!
# The text of a message

`Messenger.call` in `Model/Util.lean` takes the counting of format fields and the formatting itself as parameters.  Here both are
modelled: the regular expression with which `Messenger.__call__` counts the fields of a prototype, and `str.format`, which `sub`
applies to it.

* `str.format` is an external contract (the documentation of Python), for fields that are numbered automatically: `{}` and
  `{:spec}`.  Simplification: a field with anything else between its braces (a name, a number, a conversion, another field) is
  taken for an error.  A name is one in fact, as there are no keyword arguments; numbers, conversions and nested fields are not
  used in any message of the package.
* What the format specification does to an argument is a parameter, `show`.
-/

set_option autoImplicit false

namespace Ade
namespace MessageText

open Messenger (Arg)

/-- `len(re.findall(r'\{[^\{]*\}', text))` (ade/util.py:353): an opening brace and everything up to the last closing one before the
next opening one.  `inside` says whether there is an opening brace that has not been closed yet. -/
def countFrom (inside : Bool) : List Char → ℕ
  | [] => 0
  | c :: t =>
    if c = '{' then countFrom true t
    else if c = '}' then (if inside then 1 else 0) + countFrom false t
    else countFrom inside t

/-- The number of fields counted in a prototype (ade/util.py:353). -/
def braceCount (t : List Char) : ℕ := countFrom false t

/-- Where `str.format` is in the prototype. -/
inductive Mode where
  | text
  | opened
  | closed
  | field (reversed : List Char)
  deriving DecidableEq

/-- The specification of a field with automatic numbering; `none` for other fields. -/
def specOf : List Char → Option (List Char)
  | [] => some []
  | c :: spec => if c = ':' then some spec else none

/-- A field and what follows it: the next argument, formatted as specified, and the rest (ade/util.py:46). -/
def fill (show_ : List Char → Arg → Option (List Char)) (spec : Option (List Char)) (args : List Arg)
    (rest : List Arg → Option (List Char)) : Option (List Char) :=
  match spec, args with
  | some spec, a :: args => (show_ spec a).bind fun x => (rest args).map (x ++ ·)
  | _, _ => none

/-- `proto.format(*args)` (ade/util.py:46); `none` if it raises. -/
def formatFrom (show_ : List Char → Arg → Option (List Char)) : Mode → List Char → List Arg → Option (List Char)
  | .text, [], _ => some []
  | .opened, [], _ => none
  | .closed, [], _ => none
  | .field _, [], _ => none
  | .text, c :: t, args =>
    if c = '{' then formatFrom show_ .opened t args
    else if c = '}' then formatFrom show_ .closed t args
    else (formatFrom show_ .text t args).map (c :: ·)
  | .closed, c :: t, args => if c = '}' then (formatFrom show_ .text t args).map ('}' :: ·) else none
  | .opened, c :: t, args =>
    if c = '{' then (formatFrom show_ .text t args).map ('{' :: ·)
    else if c = '}' then
      fill show_ (specOf []) args fun args => formatFrom show_ .text t args
    else formatFrom show_ (.field [c]) t args
  | .field r, c :: t, args =>
    if c = '{' then none
    else if c = '}' then
      fill show_ (specOf r.reverse) args fun args => formatFrom show_ .text t args
    else formatFrom show_ (.field (c :: r)) t args

/-- `sub` (ade/util.py:40-48); `none` for the `ValueError` it raises whatever is wrong. -/
def sub (show_ : List Char → Arg → Option (List Char)) (proto : List Char) (args : List Arg) : Option (List Char) :=
  formatFrom show_ .text proto args

/-- `Messenger.__call__` (ade/util.py:292-362) with its counting of fields and its formatting. -/
def msg (show_ : List Char → Arg → Option (List Char)) (s : Messenger.St) (args : List Arg) : Option Messenger.St :=
  Messenger.call braceCount (sub show_) s args

end MessageText
end Ade
