import Verif.Model.RunSystem

/-!
# One run after another on the same population

A `DifferentialEvolution` object is called a second time, or another object is made for the population of a run that
has ended.  When a run is ended by `shutdown`, its Deferred fires although challenges of it may be in progress
(ade/de.py:441-442, 608-610); they go on while the next object runs.  The locks belong to the population
(ade/population.py:679, 800, 1126-1169), the flag `running` belongs to the object (ade/de.py:419, 438-439).
-/

set_option autoImplicit false

namespace Ade
namespace Session

open DESystem

variable {I : Type}

/-- A second call of an object (ade/de.py:674-683) whose run is over: `running` stays as it is. -/
def again (s : RunSystem.RS I) : RunSystem.RS I := { s with stage := .opening, failed := false }

/-- Two objects: the challenges below `old` are those of the first one, which has been shut down; `running` in `sys` is
the flag of the second one. -/
structure Ses (I : Type) where
  sys : Sys I
  old : ℕ

/-- Another object for the population (ade/de.py:404-421). -/
def another (s : Sys I) : Ses I := ⟨{ s with running := true }, s.issued⟩

/-- The challenge concerned by an act. -/
def subject : Act → Option ℕ
  | .grant j => some j
  | .finish j => some j
  | .recorded j => some j
  | _ => none

/-- Is it an act of a challenge of the first object? -/
def isOld (s : Ses I) (a : Act) : Bool :=
  match subject a with
  | some j => j < s.old
  | none => false

/-- One act: a challenge of the first object finds `running` false and leaves the flag of the second one alone. -/
def step (P : Params I) (s : Ses I) (a : Act) : Option (Ses I) :=
  if isOld s a then
    match DESystem.step P { s.sys with running := false } a with
    | none => none
    | some t => some { s with sys := { t with running := s.sys.running } }
  else
    match DESystem.step P s.sys a with
    | none => none
    | some t => some { s with sys := t }

/-- Executing a list of acts; `none` if one of them is not possible. -/
def run (P : Params I) : Ses I → List Act → Option (Ses I)
  | s, [] => some s
  | s, a :: as =>
    match step P s a with
    | none => none
    | some s' => run P s' as

end Session
end Ade
