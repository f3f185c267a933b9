import Verif.Model.PopHistory

/-!
# Going on with a saved population

Model of saving a population and its history and loading both again, perhaps by another process, perhaps with new bounds:
`Population.save`, `Population.load` (ade/population.py:427-473, 507-524) as far as the history is concerned; the other
attributes are in `Verif/Model/SaveLoad.lean`.

The hash of an individual is the hash of a bytes object made from its score and values (ade/individual.py:189-191); Python
chooses the hash function for bytes anew for each process (unless told otherwise by PYTHONHASHSEED).
-/

set_option autoImplicit false

namespace Ade
namespace Resume
open History PopHistory

/-- The hash function of a process, applied to the score and the values of an individual; `none` is the `OverflowError` of
`struct.pack` (ade/individual.py:189-191). -/
abbrev Hash := PyFloat → List PyFloat → Option Int

/-- A member after loading: its values are limited by `lim` (ade/population.py:468-471; the identity without new bounds), its
score is kept, and its hash is computed by the process that loads it. -/
def reload (hash : Hash) (lim : List PyFloat → List PyFloat) (m : Ind) : Ind :=
  ⟨m.sse, lim m.values, hash m.sse (lim m.values)⟩

/-- Saving (ade/population.py:476-493, ade/history.py:846-859) and loading (ade/population.py:427-473, 495-505,
ade/history.py:861-881).  `lp`, `ln` are the membership sets of the history as lists; `none` is an exception while the history is
restored.  The map from hashes to rows is restored as it was. -/
def resume (s : PH) (hash : Hash) (lim : List PyFloat → List PyFloat) (lp ln : List ℕ) : Option PH :=
  match load (save s.hist lp ln) with
  | none => none
  | some h => some ⟨s.members.map (reload hash lim), h⟩

end Resume
end Ade
