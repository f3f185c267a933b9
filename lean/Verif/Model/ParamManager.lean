import Verif.Model.Individual
import Mathlib.Algebra.Order.Field.Rat
import Mathlib.Order.Lattice

/-!
# Parameter manager

Model of `ade/population.py`, class `ParameterManager` (lines 56-251).  Values and bounds are lists of
rationals of equal length (numpy 1-D arrays); string formatting is left out.
-/

set_option autoImplicit false

namespace Ade

/-- Lower and upper bound of one parameter (an entry of `bounds`, ade/population.py:78-96). -/
structure Bound where
  lo : ℚ
  hi : ℚ
  deriving DecidableEq, Repr

/-- `self.scales`, one entry (ade/population.py:95). -/
def Bound.scale (b : Bound) : ℚ := b.hi - b.lo

namespace ParamManager

/-- One element of `limit` (ade/population.py:249-251): `np.where` at the lower bound, `np.where` at
the upper bound, `np.clip` (i.e. `minimum(maximum(v, lo), hi)`). -/
def limit1 (b : Bound) (v : ℚ) : ℚ :=
  let v := if v < b.lo then 2 * b.lo - v else v
  let v := if v > b.hi then 2 * b.hi - v else v
  min (max v b.lo) b.hi

/-- `limit` (ade/population.py:236-251). -/
def limit (bs : List Bound) (vs : List ℚ) : List ℚ := List.zipWith limit1 bs vs

/-- One element of `fromUnity` (ade/population.py:181-182). -/
def fromUnity1 (b : Bound) (u : ℚ) : ℚ := b.lo + b.scale * u

/-- `fromUnity` (ade/population.py:172-182). -/
def fromUnity (bs : List Bound) (us : List ℚ) : List ℚ := List.zipWith fromUnity1 bs us

/-- One element of `toUnity` (ade/population.py:192).  `none` stands for the numpy result of a division
by zero (`nan` or `inf` with a warning). -/
def toUnity1 (b : Bound) (v : ℚ) : Option ℚ :=
  if b.scale = 0 then none else some ((v - b.lo) / b.scale)

/-- `toUnity` (ade/population.py:184-192). -/
def toUnity (bs : List Bound) (vs : List ℚ) : List (Option ℚ) := List.zipWith toUnity1 bs vs

/-- `self.sortedNameIndices` (ade/population.py:83-84): for each name in sorted order, the index of
its first occurrence. -/
def sortedNameIndices {α : Type} [DecidableEq α] [LE α] [DecidableLE α] (names : List α) : List ℕ :=
  (names.mergeSort (fun a b => decide (a ≤ b))).map (fun n => names.idxOf n)

/-- `sortedNamerator(values)` (ade/population.py:152-170), with values.  Index errors do not occur
because the indices come from `names`; entries beyond the end of `values` are dropped. -/
def sortedNamerator {α : Type} [DecidableEq α] [LE α] [DecidableLE α] (names : List α)
    (values : List ℚ) : List (ℕ × α × ℚ) :=
  (sortedNameIndices names).filterMap fun k =>
    match names[k]?, values[k]? with
    | some n, some v => some (k, n, v)
    | _, _ => none

/-- A Python dict from parameter names to values, observed through lookup. -/
abbrev Dict := String → Option ℚ

/-- `d[name] = value`. -/
def Dict.set (d : Dict) (name : String) (v : ℚ) : Dict := fun n => if n = name then some v else d n

/-- The empty dict. -/
def Dict.empty : Dict := fun _ => none

/-- The loop `for name, value in zip(self.names, values): params[name] = value`
(ade/population.py:227-229). -/
def paramsOf (names : List String) (values : List ℚ) : Dict :=
  (names.zip values).foldl (fun d nv => Dict.set d nv.1 nv.2) Dict.empty

/-- `passesConstraints` (ade/population.py:226-234).  A constraint is any function from the dict to a
truth value; constraints that raise are not modelled. -/
def passesConstraints (names : List String) (cs : List (Dict → Bool)) (values : List ℚ) : Bool :=
  if cs.isEmpty then true
  else
    let params := paramsOf names values
    go params cs
where
  /-- The `for func in self.constraints` loop (ade/population.py:230-234). -/
  go (params : Dict) : List (Dict → Bool) → Bool
    | [] => true
    | f :: fs => if !f params then false else go params fs

/-- A Python object offered as a constraint: callable or not. -/
inductive Obj where
  | callable (f : Dict → Bool)
  | other

/-- `callable(f)`. -/
def Obj.isCallable : Obj → Bool
  | .callable _ => true
  | .other => false

/-- `setConstraints` (ade/population.py:194-213): the new constraint list, or a `ValueError`
(left).  The list in force is only replaced when the call returns. -/
def setConstraints (args : List Obj) : Except String (List (Dict → Bool)) :=
  if args.all Obj.isCallable then
    .ok (args.filterMap fun | .callable f => some f | .other => none)
  else .error "ValueError"

/-- Constraints in force after a call of `setConstraints` that may raise. -/
def afterSetConstraints (current : List (Dict → Bool)) (args : List Obj) : List (Dict → Bool) :=
  match setConstraints args with
  | .ok cs => cs
  | .error _ => current

end ParamManager
end Ade
