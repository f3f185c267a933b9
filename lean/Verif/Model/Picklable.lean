import Mathlib.Data.List.Basic

/-!
# Pickling of plain objects

Model of `ade/util.py`, class `Picklable` (78-98), the base class of `EvalTimer`, of the examples' `Data` and of
their evaluators.  Simplifications: attributes are looked up in the object and then in its class; there are no
properties or other descriptors, and `dir` lists exactly the attributes found that way.
-/

set_option autoImplicit false

namespace Ade
namespace Picklable

/-- A class: the attributes found on it (with those of its base classes), and its `__slots__`, if any class
among its bases has one (the one found first). -/
structure Cls (α : Type) where
  attrs : String → Option α
  slots : Option (List String)

/-- An object: its class and its own attributes. -/
structure Obj (α : Type) where
  cls : Cls α
  own : String → Option α

/-- `getattr(self, name)`; `none` for an `AttributeError`. -/
def Obj.get {α : Type} (o : Obj α) (name : String) : Option α :=
  match o.own name with
  | some x => some x
  | none => o.cls.attrs name

/-- `__getstate__` (ade/util.py:82-94), as the partial function from names to the values stored. -/
def Obj.getstate {α : Type} (o : Obj α) : String → Option α := fun name =>
  match o.cls.slots with
  | some slots => if name ∈ slots then o.get name else none
  | none =>
    if (o.get name).isSome then
      if name.startsWith "_" || (o.cls.attrs name).isSome then none else o.get name
    else none

/-- Unpickling: a new object of the class, on which `__setstate__` (ade/util.py:96-98) sets each attribute. -/
def load {α : Type} (cls : Cls α) (state : String → Option α) : Obj α := ⟨cls, state⟩

/-- Pickling and unpickling. -/
def Obj.roundTrip {α : Type} (o : Obj α) : Obj α := load o.cls o.getstate

end Picklable
end Ade
