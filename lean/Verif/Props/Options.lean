import Verif.Model.Options
import Mathlib.Tactic.NormNum

/-!
# Property C90: the options of a run
-/

set_option autoImplicit false

namespace Ade
namespace Options

theorem construct_ok (kw cls : String → Option Val) (s : List (String × Val)) (h : construct kw cls = .ok s) :
    s = settings kw cls ∧ invalidCR (lookup s "CR") = .ok false := by
  unfold construct at h
  dsimp only at h
  split at h
  · cases h
  · cases h
  · rename_i hc; injection h with h; subst h; exact ⟨rfl, hc⟩

theorem lookup_settings (kw cls : String → Option Val) (name : String) (dflt : Val)
    (hd : (name, dflt) ∈ attributes) : lookup (settings kw cls) name = value kw cls name dflt := by
  simp only [attributes, List.mem_cons, Prod.mk.injEq, List.not_mem_nil, or_false] at hd
  rcases hd with ⟨rfl, rfl⟩ | ⟨rfl, rfl⟩ | ⟨rfl, rfl⟩ | ⟨rfl, rfl⟩ | ⟨rfl, rfl⟩ | ⟨rfl, rfl⟩ | ⟨rfl, rfl⟩ |
    ⟨rfl, rfl⟩ | ⟨rfl, rfl⟩ | ⟨rfl, rfl⟩ <;> simp [lookup, settings, attributes, List.find?]

/-- The documented options with their defaults. -/
def documented : List (String × Val) :=
  [("CR", .num (.fin (8 / 10))), ("F", .pair (.fin (1 / 2)) (.fin 1)), ("maxiter", .num (.fin 500)),
    ("randomBase", .bool false), ("uniform", .bool false), ("adaptive", .bool true), ("bitterEnd", .bool false),
    ("dwellByGrave", .num (.fin 5)), ("goalSSE", .none), ("xSSE", .bool false)]

theorem attributes_eq : attributes = documented := by
  have : (4 / 5 : ℚ) = 8 / 10 := by norm_num
  simp only [attributes, documented, this]

/-- C90: an option that is given, other than as `None`, has the value given. -/
theorem C90_given (kw cls : String → Option Val) (s : List (String × Val)) (h : construct kw cls = .ok s)
    (name : String) (dflt v : Val) (hd : (name, dflt) ∈ documented) (hv : kw name = some v) (hn : v ≠ .none) :
    lookup s name = v := by
  obtain ⟨rfl, -⟩ := construct_ok kw cls s h
  rw [lookup_settings kw cls name dflt (attributes_eq ▸ hd), value, hv]
  cases v <;> simp_all

/-- C90: an option that is not given, or given as `None`, has its documented default (in a class that does not define an
attribute of that name). -/
theorem C90_default (kw cls : String → Option Val) (s : List (String × Val)) (h : construct kw cls = .ok s)
    (name : String) (dflt : Val) (hd : (name, dflt) ∈ documented)
    (hv : (kw name = none ∧ cls name = none) ∨ kw name = some .none) :
    lookup s name = dflt := by
  obtain ⟨rfl, -⟩ := construct_ok kw cls s h
  rw [lookup_settings kw cls name dflt (attributes_eq ▸ hd), value]
  rcases hv with ⟨h1, h2⟩ | h1 <;> simp [*]

/-- C90: a run never has a crossover rate outside of 0 to 1: the constructor raises a `ValueError` exactly for numbers
below 0 and above 1. -/
theorem C90_crossover_rate (kw cls : String → Option Val) (x : PyFloat) (hx : kw "CR" = some (.num x)) :
    (construct kw cls = .error .valueError ↔ x.lt (.fin 0) = true ∨ PyFloat.lt (.fin 1) x = true) ∧
    ((∃ s, construct kw cls = .ok s) ↔ x = .nan ∨ ∃ q : ℚ, 0 ≤ q ∧ q ≤ 1 ∧ x = .fin q) := by
  have hl : lookup (settings kw cls) "CR" = .num x := by
    rw [lookup_settings kw cls "CR" (.num (.fin (4 / 5))) (by simp [attributes]), value, hx]
    rfl
  unfold construct
  dsimp only
  rw [hl]
  simp only [invalidCR]
  constructor
  · cases h1 : x.lt (.fin 0) <;> cases h2 : PyFloat.lt (.fin 1) x <;> simp
  · cases x with
    | nan => simp [PyFloat.lt]
    | ninf => simp [PyFloat.lt]
    | pinf => simp [PyFloat.lt]
    | fin q =>
      simp only [PyFloat.lt, reduceCtorEq, false_or, PyFloat.fin.injEq]
      by_cases h1 : q < 0
      · simp [h1]
      · by_cases h2 : 1 < q
        · simp [h1, h2]
        · simp [h1, h2, not_lt.1 h1, not_lt.1 h2]

/-- C90: a crossover rate given as a truth value is accepted and kept; a pair of numbers is refused with a `TypeError`. -/
theorem C90_crossover_rate_kinds (kw cls : String → Option Val) :
    (∀ b, kw "CR" = some (.bool b) → ∃ s, construct kw cls = .ok s ∧ lookup s "CR" = .bool b) ∧
    (∀ x y, kw "CR" = some (.pair x y) → construct kw cls = .error .typeError) := by
  constructor
  · intro b hb
    have hl : lookup (settings kw cls) "CR" = .bool b := by
      rw [lookup_settings kw cls "CR" (.num (.fin (4 / 5))) (by simp [attributes]), value, hb]
      rfl
    refine ⟨settings kw cls, ?_, hl⟩
    unfold construct
    dsimp only
    rw [hl]
    rfl
  · intro x y hp
    have hl : lookup (settings kw cls) "CR" = .pair x y := by
      rw [lookup_settings kw cls "CR" (.num (.fin (4 / 5))) (by simp [attributes]), value, hp]
      rfl
    unfold construct
    dsimp only
    rw [hl]
    rfl

example := (C90_crossover_rate_kinds (fun n => if n = "CR" then some (.bool true) else none) fun _ => none).1 true rfl

example := (C90_crossover_rate_kinds (fun n => if n = "CR" then some (.pair (.fin 0) (.fin 1)) else none)
  fun _ => none).2 _ _ rfl

/-- C90: keywords that are not options, for example misspelled ones, are ignored without a message: they change
nothing. -/
theorem C90_unknown_ignored (kw kw' cls : String → Option Val)
    (h : ∀ name dflt, (name, dflt) ∈ documented → kw name = kw' name) : construct kw cls = construct kw' cls := by
  have hs : settings kw cls = settings kw' cls := by
    unfold settings
    apply List.map_congr_left
    intro a ha
    simp only [value, h a.1 a.2 (attributes_eq ▸ ha)]
  unfold construct
  rw [hs]

example := C90_unknown_ignored (fun n => if n = "maxIter" then some (.num (.fin 5)) else none) (fun _ => none)
  (fun _ => none) (by
    intro name dflt h
    have : name ≠ "maxIter" := by
      rintro rfl
      simp [documented] at h
    simp [this])

/-- C112, what does hold: runs that are conducted alike have the same value for each documented option but `uniform`: all
the others are consulted. -/
theorem C112_consulted_partial (s s' : List (String × Val)) (h : conduct s = conduct s') (name : String) (dflt : Val)
    (hd : (name, dflt) ∈ documented) (hu : name ≠ "uniform") : lookup s name = lookup s' name := by
  simp only [conduct, Conduct.mk.injEq] at h
  obtain ⟨h1, h2, h3, h4, h5, h6, h7, h8, h9⟩ := h
  simp only [documented, List.mem_cons, Prod.mk.injEq, List.not_mem_nil, or_false] at hd
  rcases hd with ⟨rfl, rfl⟩ | ⟨rfl, rfl⟩ | ⟨rfl, rfl⟩ | ⟨rfl, rfl⟩ | ⟨rfl, rfl⟩ | ⟨rfl, rfl⟩ | ⟨rfl, rfl⟩ |
    ⟨rfl, rfl⟩ | ⟨rfl, rfl⟩ | ⟨rfl, rfl⟩ <;> first | assumption | exact absurd rfl hu

/-- C112, negation: the option `uniform`, documented to select the way in which the population is initialized, has no
effect at all: whether it is given, and with which value, makes no difference to the run. -/
theorem C112_uniform_ignored (kw kw' cls cls' : String → Option Val)
    (h : ∀ name, name ≠ "uniform" → kw name = kw' name) (hc : ∀ name, name ≠ "uniform" → cls name = cls' name) :
    (construct kw cls).map conduct = (construct kw' cls').map conduct := by
  have hv : ∀ name, name ∈ attributes.map Prod.fst → name ≠ "uniform" →
      lookup (settings kw cls) name = lookup (settings kw' cls') name := by
    intro name hd hn
    obtain ⟨a, ha, rfl⟩ := List.mem_map.1 hd
    rw [lookup_settings kw cls _ a.2 ha, lookup_settings kw' cls' _ a.2 ha, value, value, h _ hn, hc _ hn]
  have hcr := hv "CR" (by decide) (by decide)
  have hcon : conduct (settings kw cls) = conduct (settings kw' cls') := by
    simp only [conduct, Conduct.mk.injEq]
    refine ⟨hcr, hv "F" ?_ ?_, hv "adaptive" ?_ ?_, hv "maxiter" ?_ ?_, hv "randomBase" ?_ ?_,
      hv "goalSSE" ?_ ?_, hv "bitterEnd" ?_ ?_, hv "dwellByGrave" ?_ ?_, hv "xSSE" ?_ ?_⟩ <;> decide
  unfold construct
  dsimp only
  rw [hcr]
  cases invalidCR (lookup (settings kw' cls') "CR") with
  | error e => rfl
  | ok b => cases b <;> simp [Except.map, hcon]

example := C112_uniform_ignored (fun n => if n = "uniform" then some (.bool true) else none) (fun _ => none)
  (fun _ => none) (fun _ => none) (by intro n hn; simp [hn]) (fun _ _ => rfl)

example := C112_consulted_partial (settings (fun n => if n = "uniform" then some (.bool true) else none) fun _ => none)
  (settings (fun _ => none) fun _ => none) (by with_unfolding_all rfl) "maxiter" (.num (.fin 500))
  (by simp [documented]) (by decide)

/-- Two options, one of them misspelled. -/
def exKw : String → Option Val := fun n =>
  if n = "maxiter" then some (.num (.fin 20)) else if n = "adaptve" then some (.bool false) else none

example : construct exKw (fun _ => none) = .ok (settings exKw fun _ => none) ∧
    lookup (settings exKw fun _ => none) "maxiter" = .num (.fin 20) ∧
    lookup (settings exKw fun _ => none) "adaptive" = .bool true ∧
    lookup (settings exKw fun _ => none) "CR" = .num (.fin (4 / 5)) := by
  refine ⟨by with_unfolding_all rfl, ?_, ?_, ?_⟩ <;> decide +kernel

theorem exKw_ok : construct exKw (fun _ => none) = .ok (settings exKw fun _ => none) := by with_unfolding_all rfl

example := C90_given exKw (fun _ => none) _ exKw_ok "maxiter" (.num (.fin 500)) (.num (.fin 20))
  (by simp [documented]) rfl nofun

example := C90_default exKw (fun _ => none) _ exKw_ok "adaptive" (.bool true) (by simp [documented])
  (.inl ⟨by decide, rfl⟩)

example := C90_crossover_rate (fun n => if n = "CR" then some (.num (.fin (3 / 2))) else none) (fun _ => none)
  (.fin (3 / 2)) rfl

end Options
end Ade
