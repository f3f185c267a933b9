import Verif.Model.SaveLoad
import Verif.Props.ParamManager

/-!
# Saving and loading a population (C45)
-/

set_option autoImplicit false

namespace Ade
namespace SaveLoad

variable {F C H : Type}

/-- C45: loading what was saved gives the same members (scores, values, durations) in the same order,
the same names, bounds, constraints, sizes, settings and history, whatever functions are supplied. -/
theorem C45_same_contents (p : Pop F C H) (f c : Option F) :
    let q := load (getstate p) f c []
    q.iList = p.iList ∧ q.pm.names = p.pm.names ∧ q.pm.bounds = p.pm.bounds ∧
    q.pm.sortedNameIndices = p.pm.sortedNameIndices ∧ q.pm.constraints = p.pm.constraints ∧
    q.Nd = p.Nd ∧ q.Np = p.Np ∧ q.popsize = p.popsize ∧ q.targetFraction = p.targetFraction ∧
    q.statusQuoScore = p.statusQuoScore ∧ q.debug = p.debug ∧ q.history = p.history ∧
    q.func = f ∧ q.complaint = c :=
  ⟨rfl, rfl, rfl, rfl, rfl, rfl, rfl, rfl, rfl, rfl, rfl, rfl, rfl, rfl⟩

/-- C45: a population that was set up, whether still running or aborted, is runnable after loading, with
one free lock per member whatever locks were held, and no stale ranking; so is one loaded with new
bounds. -/
theorem C45_runnable (p : Pop F C H) (f c : Option F) (bounds : List Bound)
    (h : p.running ≠ none) :
    let q := load (getstate p) f c bounds
    q.running = some true ∧ q.held.length = q.iList.length ∧ (∀ b ∈ q.held, b = false) ∧
      q.ranking = none := by
  have hr : (if p.running = some false then some true else p.running) = some true := by
    match hp : p.running with
    | none => exact absurd hp h
    | some true => rfl
    | some false => rfl
  unfold load getstate setstate
  cases bounds with
  | nil => simpa using hr
  | cons b bs => simpa using hr

/-- C45: with new bounds (lower not above upper, one pair per parameter), every member lies within
them, keeps its score, and keeps each value that already was within its bounds. -/
theorem C45_new_bounds (p : Pop F C H) (f c : Option F) (bounds : List Bound) (k : ℕ) (m : Member)
    (hne : bounds ≠ []) (hb : ∀ b ∈ bounds, b.lo ≤ b.hi) (hm : p.iList[k]? = some m)
    (hlen : m.ind.values.length = bounds.length) :
    let q := load (getstate p) f c bounds
    q.pm.bounds = bounds ∧ ∃ m', q.iList[k]? = some m' ∧ m'.ind.stored = m.ind.stored ∧
      m'.ind.values.length = bounds.length ∧
      ∀ (d : ℕ) (b : Bound) (v : ℚ), bounds[d]? = some b → m.ind.values[d]? = some v →
        ∃ v', m'.ind.values[d]? = some v' ∧ b.lo ≤ v' ∧ v' ≤ b.hi ∧
          (b.lo ≤ v → v ≤ b.hi → v' = v) := by
  have he : bounds.isEmpty = false := by cases bounds <;> simp_all
  simp only [load, he, Bool.false_eq_true, if_false, true_and]
  refine ⟨limitMember bounds m, by simp [setstate, getstate, hm], rfl, ?_, ?_⟩
  · simp [limitMember, ParamManager.limit, hlen]
  · intro d b v hd hv
    refine ⟨ParamManager.limit1 b v, by
      show (List.zipWith _ _ _)[d]? = _
      rw [List.getElem?_zipWith, hd, hv], ?_⟩
    have hbb := hb b (List.mem_of_getElem? hd)
    refine ⟨?_, ?_, ?_⟩
    · exact le_min (le_max_right _ _) hbb
    · exact min_le_right _ _
    · intro h1 h2
      simp only [ParamManager.limit1, if_neg (not_lt.2 h1), gt_iff_lt, if_neg (not_lt.2 h2),
        max_eq_left h1, min_eq_left h2]

/-- A population of two members in [0, 10], aborted while the lock of the second was held. -/
def example1 : Pop Unit (ParamManager.Dict → Bool) Unit where
  func := some ()
  complaint := none
  debug := false
  running := some false
  Nd := 1
  Np := 2
  popsize := 10
  targetFraction := 2 / 100
  statusQuoScore := 4 / 100
  iList := [⟨⟨some (.fin 3), [8]⟩, some 1⟩, ⟨⟨some (.fin 5), [2]⟩, some 1⟩]
  pm := ⟨["x"], [0], [⟨0, 10⟩], [fun d => d "x" != some 4]⟩
  history := ()
  counter := 7
  replacementScore := some 1
  held := [false, true]
  ranking := some [0, 1]
  reportedBest := some ⟨⟨some (.fin 3), [8]⟩, some 1⟩

example : example1.running ≠ none ∧
    (load (getstate example1) (some ()) none [⟨0, 6⟩]).iList.map (fun m => m.ind.values) = [[4], [2]] ∧
    (load (getstate example1) (some ()) none [⟨0, 6⟩]).held = [false, false] := by
  decide +kernel

/-- Loading with new bounds does not check the constraints: all members satisfied them before, one
does not afterwards. -/
theorem C45_bounds_ignore_constraints :
    (example1.iList.all fun m =>
      ParamManager.passesConstraints example1.pm.names example1.pm.constraints m.ind.values) = true ∧
    ((load (getstate example1) (some ()) none [⟨0, 6⟩]).iList.all fun m =>
      ParamManager.passesConstraints example1.pm.names example1.pm.constraints m.ind.values)
      = false := by decide +kernel

/-- C45: a population saved before it has been set up is still not set up after loading. -/
theorem C45_never_set_up (p : Pop F C H) (f c : Option F) (bounds : List Bound) (h : p.running = none) :
    (load (getstate p) f c bounds).running = none := by
  unfold load getstate setstate
  cases bounds <;> simp [h]

/-- What loading does not keep: the evaluation counter starts again at zero, the replacement score is
unset, and the best individual reported so far is forgotten. -/
theorem C45_not_kept (p : Pop F C H) (f c : Option F) (bounds : List Bound) :
    let q := load (getstate p) f c bounds
    q.counter = 0 ∧ q.replacementScore = none ∧ q.reportedBest = none := by
  unfold load getstate setstate
  cases bounds <;> exact ⟨rfl, rfl, rfl⟩

example := C45_never_set_up { example1 with running := none } (some ()) none [⟨0, 6⟩] rfl

example := C45_runnable example1 (some ()) none [⟨0, 6⟩] (by decide)

end SaveLoad
end Ade
