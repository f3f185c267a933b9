import Verif.Model.DESystem

/-!
# Specification: sequential differential evolution

The textbook loop: one challenge after the other, each run to its end by a blocking evaluator.
No locks, no concurrency.
-/

set_option autoImplicit false

namespace Ade
namespace Sequential

open DESystem (Req Outcome)

variable {I : Type}

/-- One blocking challenge: compute the trial from the current members and replace the target if the
trial is strictly better. -/
def challenge (lt : I → I → Bool) (pop : ℕ → I) (r : Req I) : ℕ → I :=
  match r.trial (pop r.kt) (pop r.kb) (pop r.k0) (pop r.k1) with
  | .evaluated c => fun k => if k = r.kt ∧ lt c (pop r.kt) = true then c else pop k
  | _ => pop

/-- The population after the first `n` challenges. -/
def popAfter (lt : I → I → Bool) (req : ℕ → Req I) (pop₀ : ℕ → I) : ℕ → (ℕ → I)
  | 0 => pop₀
  | n + 1 => challenge lt (popAfter lt req pop₀ n) (req n)

end Sequential
end Ade
