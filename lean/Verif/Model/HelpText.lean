import Mathlib.Data.List.Basic

/-!
# Help texts of options

`Args.addDefault` (ade/args.py:87-91), which makes the help text of an option that takes a value.  `Verif/Model/Scripts.lean` has the
rest of `Args`.

Simplifications: texts are lists of characters; the default value is given as the text that `str.format` makes of it.  `str.format` is
modelled for texts in which the only replacement fields are `{}`; others give `other`.  What argparse makes of the text (line breaks,
`%` signs) is left out.
-/

set_option autoImplicit false

namespace Ade
namespace HelpText

abbrev Str := List Char

/-- `w in s` (ade/args.py:88-89). -/
def contains (w : Str) : Str → Bool
  | [] => w.isEmpty
  | c :: s => w.isPrefixOf (c :: s) || contains w s

/-- `text.lower()` for ASCII (ade/args.py:89). -/
def lower (s : Str) : Str := s.map Char.toLower

/-- A text, an exception, or a replacement field that is not modelled. -/
inductive Result where
  | text (s : Str)
  | error
  | other
  deriving DecidableEq

/-- The text with something before it. -/
def Result.prepend (p : Str) : Result → Result
  | .text s => .text (p ++ s)
  | r => r

/-- `text.format(arg)` (ade/args.py:88); `used` tells whether a `{}` was seen, and a second one is an `IndexError`. -/
def format (arg : Str) : Bool → Str → Result
  | _, [] => .text []
  | u, '{' :: '{' :: s => (format arg u s).prepend ['{']
  | u, '{' :: '}' :: s => if u then .error else (format arg true s).prepend arg
  | _, '{' :: _ => .other
  | u, '}' :: '}' :: s => (format arg u s).prepend ['}']
  | _, '}' :: _ => .error
  | u, c :: s => (format arg u s).prepend [c]

/-- The text with the letter of the option (ade/args.py:88). -/
def withLetter (text dest : Str) : Result :=
  if dest ≠ [] && contains ['{', '}'] text then format dest false text else .text text

/-- The text with the default value (ade/args.py:89-91). -/
def withDefault (text default : Str) : Str :=
  if contains "default".toList (lower text) then text else text ++ " [".toList ++ default ++ "]".toList

/-- `addDefault` (ade/args.py:87-91). -/
def addDefault (text default dest : Str) : Result :=
  match withLetter text dest with
  | .text s => .text (withDefault s default)
  | r => r

end HelpText
end Ade
