import Verif.Model.Picklable

/-!
# Property C89: what survives pickling
-/

set_option autoImplicit false

namespace Ade
namespace Picklable

/-- C89: pickling and unpickling an object keeps every attribute that is not private and that its class does not have,
and adds none. -/
theorem C89_public_kept_partial {α : Type} (o : Obj α) (hs : o.cls.slots = none) (name : String)
    (hp : name.startsWith "_" = false) (hc : o.cls.attrs name = none) :
    o.roundTrip.get name = o.get name ∧ o.roundTrip.own name = o.own name := by
  have hg : o.get name = o.own name := by
    unfold Obj.get; cases o.own name <;> simp [hc]
  have h : o.roundTrip.own name = o.own name := by
    simp only [Obj.roundTrip, load, Obj.getstate, hs, hp, hc, hg]
    cases o.own name <;> simp
  refine ⟨?_, h⟩
  rw [hg]
  unfold Obj.get
  rw [h]
  cases o.own name <;> simp [Obj.roundTrip, load, hc]

/-- C89 is false for attributes whose name starts with an underscore, and for those that the class has a default value
for: after unpickling, the class's value (if any) is back. -/
theorem C89_overrides_lost {α : Type} (o : Obj α) (hs : o.cls.slots = none) (name : String)
    (h : name.startsWith "_" = true ∨ ∃ x, o.cls.attrs name = some x) :
    o.roundTrip.own name = none ∧ o.roundTrip.get name = o.cls.attrs name := by
  have h1 : o.roundTrip.own name = none := by
    have hb : (name.startsWith "_" || (o.cls.attrs name).isSome) = true := by
      rcases h with h | ⟨x, h⟩ <;> simp [h]
    simp only [Obj.roundTrip, load, Obj.getstate, hs, hb]
    simp
  refine ⟨h1, ?_⟩
  unfold Obj.get
  rw [h1]; rfl

/-- C89: with `__slots__`, the attributes named there survive, all others are lost (such as those of the slots of base
classes, or attributes of a subclass without slots). -/
theorem C89_slots {α : Type} (o : Obj α) (slots : List String) (hs : o.cls.slots = some slots) (name : String) :
    o.roundTrip.get name = if name ∈ slots then o.get name else o.cls.attrs name := by
  have h1 : o.roundTrip.own name = if name ∈ slots then o.get name else none := by
    simp only [Obj.roundTrip, load, Obj.getstate, hs]
  unfold Obj.get
  rw [h1]
  unfold Obj.get
  by_cases h : name ∈ slots
  · simp only [h, if_true]
    cases o.own name with
    | some x => rfl
    | none =>
      dsimp only
      cases hc : o.cls.attrs name <;> simp [Obj.roundTrip, load, hc]
  · simp [h, Obj.roundTrip, load]

/-- C89: a second round trip changes nothing more. -/
theorem C89_idempotent {α : Type} (o : Obj α) (name : String) :
    o.roundTrip.roundTrip.get name = o.roundTrip.get name := by
  have hcls : o.roundTrip.cls = o.cls := rfl
  cases hs : o.cls.slots with
  | some slots =>
    rw [C89_slots o.roundTrip slots (by rw [hcls, hs]) name, C89_slots o slots hs name, hcls]
    split <;> rfl
  | none =>
    by_cases h : name.startsWith "_" = true ∨ ∃ x, o.cls.attrs name = some x
    · rw [(C89_overrides_lost o.roundTrip (by rw [hcls, hs]) name (by rw [hcls]; exact h)).2,
        (C89_overrides_lost o hs name h).2, hcls]
    · push Not at h
      have hc : o.cls.attrs name = none := by
        cases hx : o.cls.attrs name with
        | none => rfl
        | some x => exact absurd hx (h.2 x)
      exact (C89_public_kept_partial o.roundTrip (by rw [hcls, hs]) name (by simpa using h.1) (by rw [hcls]; exact hc)).1

/-- An evaluation timer that keeps its times, and a data object whose `ranges`, a class attribute, were set on the
instance (compare ade/examples/data.py:72). -/
example : (Obj.roundTrip ⟨⟨fun n => if n = "ranges" then some 0 else none, none⟩,
      fun n => if n = "ranges" then some 7 else if n = "times" then some 5 else none⟩ : Obj ℕ).get "times" = some 5 ∧
    (Obj.roundTrip ⟨⟨fun n => if n = "ranges" then some 0 else none, none⟩,
      fun n => if n = "ranges" then some 7 else if n = "times" then some 5 else none⟩ : Obj ℕ).get "ranges" = some 0 := by
  decide +kernel

/-- An object with an override of the class attribute `ranges` and a public attribute `times`. -/
def demoObj : Obj ℕ := ⟨⟨fun n => if n = "ranges" then some 0 else none, none⟩,
  fun n => if n = "ranges" then some 7 else if n = "times" then some 5 else none⟩

example := C89_public_kept_partial demoObj rfl "times" (by decide +kernel) (by decide)

example := C89_overrides_lost demoObj rfl "ranges" (.inr ⟨0, by decide⟩)

example := C89_slots { demoObj with cls := { demoObj.cls with slots := some ["times"] } } ["times"] rfl "times"

end Picklable
end Ade
