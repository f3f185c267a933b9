import Verif.Model.History
import Verif.Lemmas.HistoryRows

/-!
# Vocabulary for stating the history properties
-/

set_option autoImplicit false

namespace Ade
namespace History
open ClosestPair

/-- What is assumed of the conversion to float32: NaN is kept, the order is kept (weakly), and a converted
value converts to itself. -/
structure IsSingle (f4 : PyFloat → PyFloat) : Prop where
  nan : ∀ x, f4 x = .nan ↔ x = .nan
  mono : ∀ a b, a ≠ .nan → b ≠ .nan → b.lt a = false → (f4 b).lt (f4 a) = false
  idem : ∀ x, f4 (f4 x) = f4 x

/-- The record to be kept of an individual: its score and its values in order, converted to float32. -/
def stored (f4 : PyFloat → PyFloat) (i : Ind) : Row := ⟨f4 i.sse, i.values.map f4⟩

/-- The individual can be stored: its score and values are finite as float32 and it has a hash. -/
def Storable (f4 : PyFloat → PyFloat) (i : Ind) : Prop :=
  (stored f4 i).finite = true ∧ i.key.isSome = true

/-- A way of choosing among eligible rows that always yields an eligible row if there is one. -/
def Chooser (ch : Finset Nat → Option Nat) : Prop :=
  ∀ S : Finset Nat, S.Nonempty → ∃ r ∈ S, ch S = some r

/-- When an operation is requested properly: individuals are storable; a full roster has capacity 2 or at
least 4 and does not consist of population members only; a row number given refers to a record. -/
def Legal (f4 : PyFloat → PyFloat) (h : Hist) : Op → Prop
  | .add i _ ch => (i.sse.isFinite = true → Storable f4 i) ∧ Chooser ch ∧
      (h.K.length = h.nMax → (h.nMax = 2 ∨ 4 ≤ h.nMax) ∧ h.Kp.card < h.nMax)
  | .notInPopRow r => r ∈ h.K
  | _ => True

/-- The rows in use are not in one of the configurations for which the row picked is already in use.
(Such configurations can only arise from `purgePop`.) -/
def NoCollision (h : Hist) : Op → Prop
  | .add _ _ _ => ¬ Collides (sortRows h.K) h.K.length
  | _ => True

/-- States reachable from a new history of capacity `nMax ≥ 1` by proper requests that never meet a
colliding row configuration. -/
inductive Reach (f4 : PyFloat → PyFloat) (nMax : Nat) : Hist → Prop
  | init (hpos : 0 < nMax) : Reach f4 nMax (init nMax)
  | step (h : Hist) (op : Op) : Reach f4 nMax h → Legal f4 h op → NoCollision h op →
      Reach f4 nMax (step f4 h op)

/-- States reachable from a new history of capacity `nMax ≥ 1` by proper requests other than purging
the population. -/
inductive ReachNP (f4 : PyFloat → PyFloat) (nMax : Nat) : Hist → Prop
  | init (hpos : 0 < nMax) : ReachNP f4 nMax (init nMax)
  | step (h : Hist) (op : Op) : ReachNP f4 nMax h → Legal f4 h op → op ≠ .purgePop →
      ReachNP f4 nMax (step f4 h op)

/-- A sequence of operations, each requested properly and without meeting a colliding row
configuration. -/
def LegalRun (f4 : PyFloat → PyFloat) : Hist → List Op → Prop
  | _, [] => True
  | h, op :: ops => Legal f4 h op ∧ NoCollision h op ∧ LegalRun f4 (step f4 h op) ops

/-- The number of individuals with a usable score added since the last clear. -/
def addedSinceClear (ops : List Op) : Nat :=
  ops.foldl (fun n op => match op with
    | .add i _ _ => if i.sse.isFinite then n + 1 else n
    | .clear => 0
    | _ => n) 0

/-- The rows (as stored) of the individuals with a usable score that a sequence of operations adds. -/
def rowsAdded (f4 : PyFloat → PyFloat) (ops : List Op) : List Row :=
  ops.filterMap fun op => match op with
    | .add i _ _ => if i.sse.isFinite then some (stored f4 i) else none
    | _ => none

end History
end Ade
