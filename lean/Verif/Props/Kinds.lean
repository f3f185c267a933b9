import Verif.Model.Kinds
import Verif.Props.Ieee754
import Mathlib.Tactic.Linarith
import Mathlib.Tactic.Positivity

/-!
# Whole numbers and floats as values of an individual (C149)
-/

set_option autoImplicit false

namespace Ade
namespace Kinds

/-! ## Making, copying, reading -/

theorem vals_items (a : Arr) : a.items.map Num.val = a.vals := by
  cases a <;> simp [Arr.items, Arr.vals, Function.comp_def, Num.val]

theorem ofList_vals (l : List Num) : (ofList l).vals = l.map Num.val := by
  unfold ofList
  split_ifs with h
  · simp only [Arr.vals, List.map_map]
    apply List.map_congr_left
    intro x hx
    have := List.all_eq_true.1 h.2 x hx
    cases x with
    | int n => rfl
    | flt q => simp [Num.isInt] at this
  · rfl

/-- C149: the values of an individual are those given, whatever their kinds, and a copy has the same values; with another number of
values there is an exception. -/
theorem C149_given (Nd : ℕ) (l : List Num) :
    (l.length ≠ Nd → update Nd l = none) ∧
    (l.length = Nd → ∃ a, update Nd l = some a ∧ a.vals = l.map Num.val ∧ (copy a).vals = a.vals) := by
  refine ⟨fun h => if_pos h, fun h => ⟨ofList l, if_neg (not_not.2 h), ofList_vals l, ?_⟩⟩
  rw [copy, ofList_vals, vals_items]

theorem items_get (a : Arr) (k : ℕ) : (getItem a k).map Num.val = a.vals[k]? := by
  rw [getItem, ← List.getElem?_map, vals_items]

/-- C149: reading an item that was assigned to gives the number assigned, if it is a whole number or any number of the list that the
individual was made of was a float; other items keep their values. -/
theorem C149_assigned_partial (l : List Num) (k : ℕ) (x : Num) (hk : k < l.length)
    (h : (∃ n : ℤ, x.val = n) ∨ ∃ y ∈ l, y.isInt = false) (j : ℕ) :
    (getItem (setItem (ofList l) k x) j).map Num.val = if j = k then some x.val else (l[j]?).map Num.val := by
  rw [items_get]
  have hv : ∀ j, (ofList l).vals[j]? = (l[j]?).map Num.val := fun j => by rw [ofList_vals, List.getElem?_map]
  have hlen : (ofList l).vals.length = l.length := by rw [ofList_vals, List.length_map]
  have key : (setItem (ofList l) k x).vals = (ofList l).vals.set k x.val := by
    rcases hb : ofList l with a | a
    · have hint : ∃ n : ℤ, x.val = n := by
        rcases h with h | ⟨y, hy, h⟩
        · exact h
        · unfold ofList at hb
          split_ifs at hb with hc
          have := List.all_eq_true.1 hc.2 y hy
          rw [h] at this; cases this
      obtain ⟨n, hn⟩ := hint
      have : x.toInt = n := by
        cases x with
        | int m => simp only [Num.val] at hn; simp only [Num.toInt]; exact_mod_cast hn
        | flt q =>
          simp only [Num.val] at hn
          simp only [Num.toInt, cut, hn, Int.floor_intCast, Int.ceil_intCast, ite_self]
      simp only [setItem, Arr.vals, List.map_set, this, hn]
    · rfl
  rw [key]
  by_cases h1 : j = k
  · subst h1
    rw [if_pos rfl, List.getElem?_set_self (by rw [hlen]; exact hk)]
  · rw [if_neg h1, List.getElem?_set_ne (fun e => h1 e.symm)]
    exact hv j

/-- C149 fails for an individual made of a list of whole numbers: a float assigned to one of its items is cut off, so that what is read
is a whole number less than one away, and never the float itself unless it is a whole number. -/
theorem C149_cut_off (l : List Num) (hl : ∀ y ∈ l, y.isInt = true) (k : ℕ) (hk : k < l.length) (x : ℚ) (hx : ∀ n : ℤ, x ≠ n) :
    ∃ n : ℤ, getItem (setItem (ofList l) k (.flt x)) k = some (.int n) ∧ (n : ℚ) ≠ x ∧ |x - n| < 1 ∧ |(n : ℚ)| ≤ |x| := by
  have hne : l ≠ [] := by rintro rfl; simp at hk
  have hof : ofList l = .ints (l.map Num.toInt) := if_pos ⟨hne, List.all_eq_true.2 hl⟩
  refine ⟨cut x, ?_, fun h => hx (cut x) h.symm, ?_, ?_⟩
  · rw [hof]
    simp [setItem, getItem, Arr.items, Num.toInt, hk]
  · unfold cut
    split_ifs with h
    · have := Int.floor_le x; have := Int.lt_floor_add_one x
      rw [abs_lt]; constructor <;> linarith
    · have := Int.le_ceil x; have := Int.ceil_lt_add_one x
      rw [abs_lt]; constructor <;> linarith
  · unfold cut
    split_ifs with h
    · have h0 : (0 : ℚ) ≤ ⌊x⌋ := by exact_mod_cast Int.floor_nonneg.2 h
      rw [abs_of_nonneg h0, abs_of_nonneg h]
      exact Int.floor_le x
    · push Not at h
      have h0 : ((⌈x⌉ : ℤ) : ℚ) ≤ 0 := by exact_mod_cast Int.ceil_le.2 (by simpa using h.le)
      rw [abs_of_nonpos h0, abs_of_neg h]
      linarith [Int.le_ceil x]

/-! ## Arithmetic, limiting, crossover -/

theorem vals_ap {fi : ℤ → ℤ → ℤ} {fq : ℚ → ℚ → ℚ} (h : ∀ x y : ℤ, ((fi x y : ℤ) : ℚ) = fq x y) (a b : Arr) :
    (ap fi fq a b).vals = List.zipWith fq a.vals b.vals := by
  cases a with
  | flts l => rfl
  | ints l =>
    cases b with
    | flts m => rfl
    | ints m =>
      simp only [ap, Arr.vals, List.map_zipWith, List.zipWith_map]
      congr 1
      funext x y
      exact h x y

/-- C149: sums, differences and multiples have the right values, whatever the kinds. -/
theorem C149_arithmetic (a b : Arr) (F : Num) :
    (sub a b).vals = List.zipWith (· - ·) a.vals b.vals ∧ (add a b).vals = List.zipWith (· + ·) a.vals b.vals ∧
    (mul a F).vals = a.vals.map (· * F.val) := by
  refine ⟨vals_ap (fun x y => by push_cast; rfl) a b, vals_ap (fun x y => by push_cast; rfl) a b, ?_⟩
  cases a with
  | flts l => cases F <;> rfl
  | ints l =>
    cases F with
    | flt x => rfl
    | int n => simp [mul, Arr.vals, Num.val]

theorem zipWith_self_right {α β γ : Type} (f : α → β → γ) (g : α → γ → γ) (l : List α) (m : List β) :
    List.zipWith g l (List.zipWith f l m) = List.zipWith (fun x y => g x (f x y)) l m := by
  induction l generalizing m with
  | nil => simp
  | cons a l ih => cases m <;> simp [ih]

/-- C149: limiting gives the same values, whatever the kinds of values and bounds. -/
theorem C149_limit (bs : List Bound) (mins maxs a : Arr) (h0 : mins.vals = bs.map Bound.lo) (h1 : maxs.vals = bs.map Bound.hi) :
    (limit mins maxs a).vals = ParamManager.limit bs a.vals := by
  unfold limit
  simp only
  rw [vals_ap (fun x y => by push_cast; rfl), vals_ap (fun x y => by push_cast; rfl), vals_ap, vals_ap, h0, h1]
  · unfold ParamManager.limit
    generalize a.vals = v
    clear h0 h1
    induction bs generalizing v with
    | nil => simp
    | cons b bs ih =>
      cases v with
      | nil => simp
      | cons x v =>
        simp only [List.map_cons, List.zipWith_cons_cons]
        rw [ih]
        rfl
  · intro x y
    have : ((y : ℚ) < x) ↔ y < x := Int.cast_lt
    split_ifs <;> simp_all
  · intro x y
    have : ((y : ℚ) > x) ↔ y > x := Int.cast_lt
    split_ifs <;> simp_all

theorem donor_isInt (F : Num) (b i0 i1 : Arr) :
    (donor F b i0 i1).isInt = (F.isInt && b.isInt && i0.isInt && i1.isInt) := by
  cases F <;> cases b <;> cases i0 <;> cases i1 <;> rfl

theorem donor_vals (F : Num) (b i0 i1 : Arr) :
    (donor F b i0 i1).vals = List.zipWith (· + ·) b.vals ((List.zipWith (· - ·) i0.vals i1.vals).map (· * F.val)) := by
  unfold donor
  rw [(C149_arithmetic b _ F).2.1, (C149_arithmetic _ b F).2.2, (C149_arithmetic i0 i1 F).1]

theorem crossover_float (CR : ℚ) (Nd j : ℕ) (u : ℕ → ℚ) (t : Arr) (l : List ℚ) :
    (crossover CR Nd j u t (.flts l)).vals = Challenge.crossoverWith CR Nd j u t.vals l := by
  unfold crossover Challenge.crossoverWith
  have gen : ∀ (ks : List ℕ) (l : List ℚ),
      ks.foldl (fun m k => if k = j then m else if CR < u k then setItem m k ((getItem t k).getD (.flt default)) else m) (.flts l) =
        .flts (ks.foldl (fun m k => if k = j then m else if CR < u k then m.set k (t.vals.getD k default) else m) l) := by
    intro ks
    induction ks with
    | nil => intro l; rfl
    | cons k ks ih =>
      intro l
      rw [List.foldl_cons, List.foldl_cons]
      have : ((getItem t k).getD (.flt default)).val = t.vals.getD k default := by
        have := items_get t k
        rw [List.getD_eq_getElem?_getD, ← this]
        cases getItem t k <;> rfl
      split_ifs
      · exact ih l
      · rw [setItem, this]; exact ih _
      · exact ih l
  rw [gen]
  rfl

/-- C149: a challenger has the documented values (those of C24), whatever the kinds of the individuals and bounds, if the mutation
coefficient is a float, as every drawn or adapted one is, or the base or one of the others has a float. -/
theorem C149_challenger_partial (c : Challenge.Config) (d : Challenge.Draws) (mins maxs : Arr)
    (h0 : mins.vals = c.bounds.map Bound.lo) (h1 : maxs.vals = c.bounds.map Bound.hi) (F : Num) (hF : F.val = d.F) (t b i0 i1 : Arr)
    (hk : F.isInt = false ∨ b.isInt = false ∨ i0.isInt = false ∨ i1.isInt = false) :
    (challenger mins maxs c.CR c.bounds.length d.j d.u F t b i0 i1).vals =
      Challenge.challenger c d ⟨none, t.vals⟩ ⟨none, b.vals⟩ ⟨none, i0.vals⟩ ⟨none, i1.vals⟩ := by
  unfold challenger
  rw [C149_limit c.bounds mins maxs _ h0 h1]
  have hd := donor_vals F b i0 i1
  have hi := donor_isInt F b i0 i1
  rcases hdon : donor F b i0 i1 with l | l
  · rw [hdon] at hi
    rw [show (Arr.ints l).isInt = true from rfl] at hi
    rcases hk with h | h | h | h <;> rw [h] at hi <;> simp at hi
  · rw [hdon] at hd
    simp only [Arr.vals] at hd
    rw [crossover_float]
    unfold Challenge.challenger Challenge.crossover Challenge.donor
    rw [hd, hF]
    rfl

/-- C149 fails for a single whole number as mutation coefficient and individuals made of whole numbers: the challenger of a target at
0.5 is given 0 instead, which is neither the target's value nor the donor's. -/
theorem C149_challenger_cut :
    (challenger (.flts [-10, -10]) (.flts [10, 10]) (1 / 2) 2 0 (fun _ => 3 / 4) (.int 1) (.flts [1 / 2, 1 / 2]) (ofList [.int 1, .int 2])
      (ofList [.int 3, .int 4]) (ofList [.int 2, .int 1])).vals = [2, 0] ∧
    Challenge.challenger ⟨[⟨-10, 10⟩, ⟨-10, 10⟩], ["x", "y"], [], 1 / 2, false⟩ ⟨1, 0, fun _ => 3 / 4⟩ ⟨none, [1 / 2, 1 / 2]⟩ ⟨none, [1, 2]⟩
      ⟨none, [3, 4]⟩ ⟨none, [2, 1]⟩ = [2, 1 / 2] := by
  decide +kernel

/-! ## Equal individuals and their keys -/

theorem word_intBytes (n : ℤ) : Ieee754.word (intBytes n) = (n % 2 ^ 64).toNat := by
  have h : (n % 2 ^ 64).toNat < 2 ^ 64 := by omega
  generalize hw : (n % 2 ^ 64).toNat = w at h
  simp only [Ieee754.word, intBytes, hw, List.ofFn_succ, List.ofFn_zero, List.map_cons, List.map_nil, Nat.ofDigits_cons, Nat.ofDigits_nil]
  simp only [Fin.val_zero, Fin.val_succ, pow_zero, Nat.div_one, zero_add, pow_one]
  norm_num at h ⊢
  omega

/-- The bytes of a whole number as an integer stand for another number if taken for a double. -/
theorem intBytes_double (n : ℤ) (h0 : n ≠ 0) (hn : |n| < 2 ^ 52) : Ieee754.double (intBytes n) ≠ .fin n := by
  unfold Ieee754.double
  rw [word_intBytes]
  rcases lt_or_gt_of_ne h0 with h | h
  · -- negative: a NaN
    have hn' : -2 ^ 52 < n := by rw [abs_lt] at hn; exact hn.1
    have hw : (n % 2 ^ 64).toNat = 1 * 2 ^ (52 + 11) + (2 ^ 63 - n.natAbs) := by
      have : n % 2 ^ 64 = n + 2 ^ 64 := by omega
      rw [this]; omega
    rw [hw, Ieee754.value_of 52 11 (-1074) 1 _ (by omega)]
    have e1 : (2 ^ 63 - n.natAbs) / 2 ^ 52 = 2 ^ 11 - 1 := by omega
    have e2 : (2 ^ 63 - n.natAbs) % 2 ^ 52 ≠ 0 := by omega
    rw [if_pos e1, if_neg e2]
    simp
  · have hn' : n < 2 ^ 52 := by rw [abs_lt] at hn; exact hn.2
    have hw : (n % 2 ^ 64).toNat = 0 * 2 ^ (52 + 11) + n.toNat := by
      have : n % 2 ^ 64 = n := by omega
      rw [this]; omega
    rw [hw, Ieee754.value_of 52 11 (-1074) 0 _ (by omega)]
    have e1 : n.toNat / 2 ^ 52 = 0 := by omega
    rw [if_neg (by rw [e1]; norm_num)]
    intro hc
    simp only [PyFloat.fin.injEq] at hc
    have hm : Ieee754.magnitude 52 (-1074) n.toNat = (n : ℚ) * 2 ^ (-1074 : ℤ) := by
      unfold Ieee754.magnitude
      rw [if_pos e1, Nat.mod_eq_of_lt (by omega)]
      have : ((n.toNat : ℕ) : ℚ) = (n : ℚ) := by exact_mod_cast Int.toNat_of_nonneg h.le
      rw [this]
    rw [hm] at hc
    have hpos : (0 : ℚ) < n := by exact_mod_cast h
    have hlt : (2 : ℚ) ^ (-1074 : ℤ) < 1 := zpow_lt_one_of_neg₀ (by norm_num) (by norm_num)
    have h1 : (n : ℚ) * 2 ^ (-1074 : ℤ) < n := by
      calc (n : ℚ) * 2 ^ (-1074 : ℤ) < n * 1 := by exact mul_lt_mul_of_pos_left hlt hpos
        _ = n := mul_one _
    have h2 : ¬ (0 = 1) := by norm_num
    simp only [h2, if_false] at hc
    linarith

/-- C149 fails for keys: an individual made of whole numbers (not all zero, of size below 2⁵²) and one made of the same numbers as
floats are equal, but their keys, which are hashed, differ. -/
theorem C149_equal_other_key (sse : Double) (s : List Byte) (l : List ℤ) (v : List Double)
    (hv : List.Forall₂ (fun n d => Ieee754.double d = .fin (n : ℤ)) l v) (hl : ∀ n ∈ l, |n| < 2 ^ 52) (hne : ∃ n ∈ l, n ≠ 0)
    (hs : key sse (.ints l) = some s) :
    equals (.ints l) (.dbls v) = true ∧ key sse (.dbls v) ≠ some s := by
  constructor
  · unfold equals Stored.numbers
    clear hl hne hs
    induction hv with
    | nil => rfl
    | cons h _ ih =>
      simp only [List.map_cons, List.zip_cons_cons, List.all_cons, Bool.and_eq_true]
      exact ⟨by rw [h]; simp [PyFloat.eq], ih⟩
  · intro hc
    unfold key at hs hc
    rcases hp : Ieee754.pack sse with _ | p
    · rw [hp] at hs; cases hs
    · rw [hp] at hs hc
      simp only [Option.map_some, Option.some.injEq] at hs hc
      rw [← hs] at hc
      have hb := (List.append_right_inj _).1 hc
      simp only [Stored.bytes] at hb
      clear hc hs
      induction hv with
      | nil => obtain ⟨n, hn, -⟩ := hne; simp at hn
      | cons h hr ih =>
        rename_i n d l v
        simp only [List.map_cons, List.flatten_cons] at hb
        obtain ⟨e1, e2⟩ := List.append_inj hb (by simp)
        have ed : d = intBytes n := List.ofFn_injective e1
        by_cases h0 : n = 0
        · refine ih (fun m hm => hl m (by simp [hm])) ?_ e2
          obtain ⟨m, hm, hm0⟩ := hne
          rcases List.mem_cons.1 hm with rfl | hm
          · exact absurd h0 hm0
          · exact ⟨m, hm, hm0⟩
        · rw [ed] at h
          exact intBytes_double n h0 (hl n (by simp)) h

namespace Demo

example := (C149_given 2 [.int 1, .flt (1 / 2)]).2 rfl
example := (C149_given 3 [.int 1, .flt (1 / 2)]).1 (by decide)
example : (getItem (setItem (ofList [.int 1, .flt 2]) 0 (.flt (1 / 2))) 0).map Num.val = some (1 / 2) :=
  C149_assigned_partial [.int 1, .flt 2] 0 (.flt (1 / 2)) (by decide) (Or.inr ⟨.flt 2, by simp, rfl⟩) 0
example : getItem (setItem (ofList [.int 1, .int 2]) 0 (.flt (1 / 2))) 0 = some (.int 0) := by decide +kernel
example := C149_cut_off [.int 1, .int 2] (by decide) 0 (by decide) (1 / 2) (fun n h => by
  have h2 : (1 : ℚ) = 2 * n := by linarith
  have h3 : (1 : ℤ) = 2 * n := by exact_mod_cast h2
  omega)
example := C149_limit [⟨0, 10⟩, ⟨-1, 1⟩] (.ints [0, -1]) (.ints [10, 1]) (.flts [-1 / 2, 3]) (by decide +kernel) (by decide +kernel)
example := C149_challenger_partial ⟨[⟨-10, 10⟩, ⟨-10, 10⟩], ["x", "y"], [], 1 / 2, false⟩ ⟨1 / 2, 0, fun _ => 3 / 4⟩ (.ints [-10, -10])
  (.ints [10, 10]) (by decide +kernel) (by decide +kernel) (.flt (1 / 2)) rfl (.flts [1 / 2, 1 / 2]) (.ints [1, 2]) (.ints [3, 4])
  (.ints [2, 1]) (Or.inl rfl)
example := C149_equal_other_key Ieee754.one ((key Ieee754.one (.ints [1])).get (by decide +kernel)) [1] [Ieee754.one]
  (.cons (by decide +kernel) .nil) (by decide) ⟨1, by simp, by decide⟩ (Option.some_get _).symm

end Demo

end Kinds
end Ade
