/-!
# For cases: results that exist

Examples that apply a theorem to a concrete execution name the final state by `Option.get`.
-/

set_option autoImplicit false

namespace Ade

/-- A result that exists is the result got. -/
theorem eq_get {α : Type} {o : Option α} (h : o.isSome = true) : o = some (o.get h) := (Option.some_get h).symm

end Ade
