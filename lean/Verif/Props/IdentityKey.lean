import Verif.Model.IdentityKey
import Mathlib.Data.List.OfFn

/-!
# Property C03: equality and identity keys of individuals
-/

set_option autoImplicit false

namespace Ade

theorem flatten_ofFn_inj (l m : List Double)
    (h : (l.map fun v => List.ofFn v).flatten = (m.map fun v => List.ofFn v).flatten) : l = m := by
  induction l generalizing m with
  | nil =>
    cases m with
    | nil => rfl
    | cons v m => exact absurd (congrArg List.length h) (by simp)
  | cons u l ih =>
    cases m with
    | nil => exact absurd (congrArg List.length h) (by simp)
    | cons v m =>
      simp only [List.map_cons, List.flatten_cons] at h
      obtain ⟨h1, h2⟩ := List.append_inj h (by simp)
      rw [List.ofFn_inj.1 h1, ih m h2]

/-- C03: two individuals have the same identity key exactly when their scores have the same single
precision representation and their values are bitwise the same. -/
theorem C03_key_iff (f : Ieee) (i j : RawIndividual) (b : List Byte) (hi : identityKey f i = some b) :
    identityKey f j = some b ↔
      (∃ s, f.toSingle i.sse = some s ∧ f.toSingle j.sse = some s) ∧ i.values = j.values := by
  unfold identityKey at *
  cases hs : f.toSingle i.sse with
  | none => simp [hs] at hi
  | some s =>
    simp only [hs, Option.some.injEq] at hi
    subst hi
    cases ht : f.toSingle j.sse with
    | none => simp
    | some t =>
      simp only [Option.some.injEq]
      constructor
      · intro h
        obtain ⟨h1, h2⟩ := List.append_inj h (by simp)
        exact ⟨⟨s, rfl, List.ofFn_inj.1 h1⟩, (flatten_ofFn_inj _ _ h2).symm⟩
      · rintro ⟨⟨r, h1, h2⟩, hv⟩
        rw [hv, h2, h1]

/-- C03: bitwise identical individuals always have the same hash, in every process. -/
theorem C03_same_bits_same_hash (f : Ieee) (h : List Byte → Int) (i j : RawIndividual)
    (hs : i.sse = j.sse) (hv : i.values = j.values) : pyHash f h i = pyHash f h j := by
  unfold pyHash identityKey; rw [hs, hv]

/-- C03: two individuals with equally many values compare equal exactly when their scores and all
corresponding values are numerically equal. -/
theorem C03_rawEq_iff (f : Ieee) (i j : RawIndividual) (hl : i.values.length = j.values.length) :
    rawEq f i j = true ↔ f.numEq i.sse j.sse = true ∧
      ∀ k (hk : k < i.values.length), f.numEq i.values[k] (j.values[k]'(hl ▸ hk)) = true := by
  unfold rawEq
  rw [Bool.and_eq_true, List.all_eq_true]
  constructor
  · rintro ⟨h1, h2⟩
    refine ⟨h1, fun k hk => ?_⟩
    have hk' : k < (i.values.zip j.values).length := by rw [List.length_zip]; omega
    have := h2 _ (List.getElem_mem hk')
    simpa using this
  · rintro ⟨h1, h2⟩
    refine ⟨h1, fun p hp => ?_⟩
    obtain ⟨k, hk, e⟩ := List.getElem_of_mem hp
    rw [List.length_zip] at hk
    have := h2 k (by omega)
    rw [← e]
    simpa using this

example : (RawIndividual.mk (fun _ => 0) [fun _ => 1, fun _ => 2]).values.length =
    (RawIndividual.mk (fun _ => 1) [fun _ => 1, fun _ => 3]).values.length := rfl

/-- C03, the limit of the property: whenever two bit patterns are numerically equal, such as `0.0` and
`-0.0`, there are individuals that compare equal but have different identity keys, so that some hash
function tells them apart. -/
theorem C03_equal_but_different_key (f : Ieee) (x y s : Double) (hxy : x ≠ y)
    (heq : f.numEq x y = true) (hs : f.numEq s s = true) (t : Single) (ht : f.toSingle s = some t) :
    ∃ i j : RawIndividual, rawEq f i j = true ∧ identityKey f i ≠ identityKey f j ∧
      ∃ h : List Byte → Int, pyHash f h i ≠ pyHash f h j := by
  classical
  refine ⟨⟨s, [x]⟩, ⟨s, [y]⟩, by simp [rawEq, heq, hs], ?_⟩
  have hne : identityKey f ⟨s, [x]⟩ ≠ identityKey f ⟨s, [y]⟩ := by
    intro h
    have h1 : identityKey f ⟨s, [x]⟩ = some (List.ofFn t ++ (([x] : List Double).map fun v => List.ofFn v).flatten) := by
      simp [identityKey, ht]
    have := (C03_key_iff f ⟨s, [x]⟩ ⟨s, [y]⟩ _ h1).1 (h ▸ h1)
    exact hxy (by simpa using this.2)
  refine ⟨hne, ?_⟩
  simp only [identityKey, ht] at hne
  refine ⟨fun b => if some b = identityKey f ⟨s, [x]⟩ then 1 else 0, ?_⟩
  simp only [pyHash, identityKey, ht, Option.map_some, ne_eq, Option.some.injEq, if_true]
  rw [if_neg (fun h => hne (by rw [h]))]
  decide

/-- Non-vacuity: an arithmetic in which a sign bit (top byte 128) on zero is ignored by comparison. -/
example : ∃ (f : Ieee) (x y : Double), x ≠ y ∧ f.numEq x y = true ∧ f.numEq x x = true ∧
    ∃ t, f.toSingle x = some t := by
  refine ⟨⟨fun _ => some fun _ => 0, fun a b => ∀ k : Fin 7, a k.castSucc = b k.castSucc⟩,
    fun _ => 0, fun k => if k = 7 then 128 else 0, ?_, ?_, ?_, ⟨_, rfl⟩⟩
  · intro h; exact absurd (congrFun h 7) (by decide)
  · decide
  · decide

/-- Conversion by leaving out the last four bytes. -/
def demoIeee : Ieee := ⟨fun d => some fun k => d ⟨k, by omega⟩, fun a b => decide (∀ k, a k = b k)⟩

example := C03_key_iff demoIeee ⟨fun _ => 0, [fun _ => 1, fun _ => 2]⟩ ⟨fun k => if k = 7 then 1 else 0, [fun _ => 1, fun _ => 2]⟩
  _ rfl

example := C03_same_bits_same_hash demoIeee (fun b => b.length) ⟨fun _ => 0, [fun _ => 1, fun _ => 2]⟩
  ⟨fun _ => 0, [fun _ => 1, fun _ => 2]⟩ rfl rfl

end Ade
