import Verif.Model.Util

/-!
# Progress characters

Model of `Reporter.progressChar` (ade/report.py:352-370) on top of the messenger (Verif/Model/Util.lean): a
character for each event of a run, with line breaks, mixed with lines of text from other messages.
-/

set_option autoImplicit false

namespace Ade
namespace Progress

/-- The messenger and the reporter's `_syms_on_line` (ade/report.py:75). -/
structure St where
  msg : Messenger.St
  syms : ℕ

/-- `progressChar` (ade/report.py:352-370); `n` is the `maxLineLength` of the parameter manager (120,
ade/population.py:74), `none` is the call without a symbol.  `msg("")` writes a single newline character
(ade/util.py:333-336). -/
def progressChar (n : ℕ) (s : St) : Option Char → St
  | none => ⟨if s.syms ≠ 0 then Messenger.writeChar s.msg '\n' else s.msg, 0⟩
  | some c =>
    let msg := Messenger.writeChar s.msg c
    if (s.syms : ℤ) + 1 > (n : ℤ) - 1 then ⟨Messenger.writeChar msg '\n', 0⟩ else ⟨msg, s.syms + 1⟩

/-- What can happen: a progress character (ade/report.py:349, 434; `showFailedConstraint`,
ade/population.py:1040-1044), the call without a symbol (ade/de.py:583, ade/report.py:186), and a line of text
from any other message. -/
inductive Op where
  | char (c : Char)
  | fresh
  | line (t : List Char)

/-- The effect of an operation. -/
def step (n : ℕ) (s : St) : Op → St
  | .char c => progressChar n s (some c)
  | .fresh => progressChar n s none
  | .line t => { s with msg := Messenger.writeLine s.msg t }

/-- The start: nothing written yet to file `f`, which the messenger writes to. -/
def start (f : ℕ) : St := ⟨⟨some f, false, false, false, fun _ => [], fun _ => false, fun _ => false⟩, 0⟩

/-- What is in file `f` after some operations. -/
def output (n f : ℕ) (ops : List Op) : List Char := ((ops.foldl (step n) (start f)).msg.out f)

end Progress
end Ade
