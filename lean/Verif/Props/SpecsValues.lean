import Verif.Model.Specs
import Mathlib.Data.Nat.Digits.Defs
import Mathlib.Tactic.FieldSimp
import Mathlib.Tactic.Ring

/-!
# Values in specs files (C51)
-/

set_option autoImplicit false

namespace Ade
namespace Specs

/-! ### Specification: written numbers -/

/-- The character of a digit. -/
def digitChar (d : Fin 10) : Char := Char.ofNat (48 + d)

/-- An optional sign: `none`, `+` (`some false`) or `-` (`some true`). -/
def signText : Option Bool → Str
  | none => []
  | some false => ['+']
  | some true => ['-']

/-- A written number: sign, digits before the point, digits after it if there is one, and exponent. -/
structure Numeral where
  neg : Option Bool
  whole : List (Fin 10)
  frac : Option (List (Fin 10))
  exp : Option (Option Bool × List (Fin 10))

/-- Every present group of digits is non-empty. -/
def Numeral.Ok (n : Numeral) : Prop :=
  n.whole ≠ [] ∧ n.frac ≠ some [] ∧ ∀ e, n.exp = some e → e.2 ≠ []

/-- The text of the part after the point. -/
def fracText : Option (List (Fin 10)) → Str
  | none => []
  | some f => '.' :: f.map digitChar

/-- The text of the exponent part. -/
def expText : Option (Option Bool × List (Fin 10)) → Str
  | none => []
  | some e => 'e' :: signText e.1 ++ e.2.map digitChar

/-- The text of a number, in lower case. -/
def Numeral.text (n : Numeral) : Str :=
  signText n.neg ++ (n.whole.map digitChar ++ (fracText n.frac ++ expText n.exp))

/-- The natural number with the given decimal digits, most significant first. -/
def natOf (ds : List (Fin 10)) : ℕ := Nat.ofDigits 10 (ds.reverse.map Fin.val)

/-- The fraction meant. -/
def fracVal : Option (List (Fin 10)) → ℚ
  | none => 0
  | some f => (natOf f : ℚ) / 10 ^ f.length

/-- The factor meant by the exponent part. -/
def expFactor : Option (Option Bool × List (Fin 10)) → ℚ
  | none => 1
  | some e => if e.1 = some true then 1 / 10 ^ natOf e.2 else 10 ^ natOf e.2

/-- The number meant. -/
def Numeral.value (n : Numeral) : ℚ :=
  (if n.neg = some true then -1 else 1) * (natOf n.whole + fracVal n.frac) * expFactor n.exp

/-- `Writes v t` says that the text `t` is a way to write the value `v` (none, true, false or a number),
in upper or lower case. -/
inductive Writes : Scalar → Str → Prop where
  | none (t : Str) : lower t = "none".toList → Writes .none t
  | true (t : Str) : lower t = "true".toList → Writes (.bool true) t
  | false (t : Str) : lower t = "false".toList → Writes (.bool false) t
  | num (n : Numeral) (t : Str) : n.Ok → lower t = n.text → Writes (.num n.value) t

/-! ### Digits -/

theorem isDigit_digitChar (d : Fin 10) : isDigit (digitChar d) = true := by
  revert d; decide

theorem digit_digitChar (d : Fin 10) : digit (digitChar d) = d := by
  revert d; decide

theorem digitChar_facts (d : Fin 10) :
    (digitChar d ≠ 'n' ∧ digitChar d ≠ 't' ∧ digitChar d ≠ 'f') ∧ digitChar d ≠ ',' ∧
    digitChar d ≠ '#' ∧ digitChar d ≠ '=' ∧
    (if 'A' ≤ digitChar d && digitChar d ≤ 'Z' then Char.ofNat ((digitChar d).toNat + 32)
      else digitChar d) = digitChar d := by
  revert d; decide

theorem foldl_digits (ds : List (Fin 10)) (a : ℕ) :
    (ds.map digitChar).foldl (fun n c => 10 * n + digit c) a = a * 10 ^ ds.length + natOf ds := by
  induction ds generalizing a with
  | nil => simp [natOf]
  | cons d ds ih =>
    rw [List.map_cons, List.foldl_cons, ih, digit_digitChar]
    simp only [natOf, List.reverse_cons, List.map_append, List.map_cons, List.map_nil,
      Nat.ofDigits_append, Nat.ofDigits_singleton, List.length_map, List.length_reverse,
      List.length_cons]
    ring

theorem ofDigits_digits (ds : List (Fin 10)) : ofDigits (ds.map digitChar) = natOf ds := by
  unfold ofDigits
  rw [foldl_digits]
  simp

theorem natOf_append (as bs : List (Fin 10)) :
    natOf (as ++ bs) = natOf as * 10 ^ bs.length + natOf bs := by
  rw [← ofDigits_digits, List.map_append]
  unfold ofDigits
  rw [List.foldl_append, foldl_digits, foldl_digits]
  simp

theorem takeWhile_digits (ds : List (Fin 10)) (s : Str)
    (h : ∀ c, s.head? = some c → isDigit c = false) :
    (ds.map digitChar ++ s).takeWhile isDigit = ds.map digitChar ∧
    (ds.map digitChar ++ s).dropWhile isDigit = s := by
  induction ds with
  | nil =>
    cases s with
    | nil => simp
    | cons c s => simp [h c rfl]
  | cons d ds ih => simp [isDigit_digitChar, ih.1, ih.2]

theorem all_digits (ds : List (Fin 10)) : (ds.map digitChar).all isDigit = true := by
  simp [isDigit_digitChar]

theorem takeSign_sign (o : Option Bool) (s : Str) (h : ∀ c, s.head? = some c → isDigit c = true) :
    takeSign (signText o ++ s) = (decide (o = some true), s) := by
  match o with
  | some false => rfl
  | some true => rfl
  | none =>
    simp only [signText, List.nil_append]
    unfold takeSign
    split
    · exact absurd (h '+' rfl) (by decide)
    · exact absurd (h '-' rfl) (by decide)
    · simp

theorem head_digits (ds : List (Fin 10)) (h : ds ≠ []) (s : Str) :
    ∀ c, (ds.map digitChar ++ s).head? = some c → isDigit c = true := by
  cases ds with
  | nil => exact absurd rfl h
  | cons d ds =>
    intro c hc
    simp only [List.map_cons, List.cons_append, List.head?_cons, Option.some.injEq] at hc
    rw [← hc]
    exact isDigit_digitChar d

/-- The exponent meant. -/
def expVal : Option (Option Bool × List (Fin 10)) → ℤ
  | none => 0
  | some e => if e.1 = some true then -(natOf e.2 : ℤ) else natOf e.2

theorem parseExp_text (e : Option (Option Bool × List (Fin 10))) (h : ∀ x, e = some x → x.2 ≠ []) :
    parseExp (expText e) = some (expVal e) := by
  match e with
  | none => rfl
  | some (sg, ds) =>
    have hne := h _ rfl
    simp only at hne
    have hs := takeSign_sign sg (ds.map digitChar) (by
      have := head_digits ds hne []
      simpa using this)
    simp only [expText, List.cons_append, parseExp, ne_eq, not_true_eq_false, if_false, hs,
      all_digits, Bool.and_true, ofDigits_digits, expVal]
    have : ds.map digitChar ≠ [] := by simpa using hne
    simp [hne]

theorem expText_head (e : Option (Option Bool × List (Fin 10))) :
    ∀ c, (expText e).head? = some c → isDigit c = false := by
  match e with
  | none => intro c h; simp [expText] at h
  | some x =>
    intro c h
    simp only [expText, List.cons_append, List.head?_cons, Option.some.injEq] at h
    rw [← h]; decide

theorem expFactor_eq (e : Option (Option Bool × List (Fin 10))) :
    (10 : ℚ) ^ expVal e = expFactor e := by
  match e with
  | none => simp [expVal, expFactor]
  | some (sg, ds) =>
    simp only [expVal, expFactor]
    split_ifs <;> simp

theorem fracText_head (f : Option (List (Fin 10))) (e : Option (Option Bool × List (Fin 10))) :
    ∀ c, (fracText f ++ expText e).head? = some c → isDigit c = false := by
  match f with
  | none => exact expText_head e
  | some f =>
    intro c h
    simp only [fracText, List.cons_append, List.head?_cons, Option.some.injEq] at h
    rw [← h]; decide

theorem parseFrac_text (f : Option (List (Fin 10))) (e : Option (Option Bool × List (Fin 10)))
    (h : f ≠ some []) :
    parseFrac (fracText f ++ expText e) = some ((f.getD []).map digitChar, expText e) := by
  match f with
  | none =>
    cases e with
    | none => rfl
    | some e => simp [fracText, expText, parseFrac]
  | some f =>
    have hf := takeWhile_digits f (expText e) (expText_head e)
    have hne : f ≠ [] := fun h' => h (by rw [h'])
    simp [fracText, parseFrac, hf.1, hf.2, hne]

theorem mantissa (whole : List (Fin 10)) (f : Option (List (Fin 10))) :
    ((natOf (whole ++ f.getD []) : ℕ) : ℚ) / 10 ^ (f.getD []).length = natOf whole + fracVal f := by
  match f with
  | none => simp [fracVal]
  | some f =>
    have h10 : (10 : ℚ) ^ f.length ≠ 0 := by positivity
    simp only [Option.getD_some, natOf_append, fracVal]
    push_cast
    field_simp

theorem parseNum_text (n : Numeral) (h : n.Ok) : parseNum n.text = some n.value := by
  obtain ⟨neg, whole, frac, exp⟩ := n
  obtain ⟨h1, h2, h3⟩ := h
  simp only at h1 h2 h3
  unfold parseNum Numeral.text
  rw [takeSign_sign neg _ (head_digits whole h1 _)]
  have ht := takeWhile_digits whole _ (fracText_head frac exp)
  have hw : whole.map digitChar ≠ [] := by simpa using h1
  simp only [ht.1, ht.2, hw, if_false, parseFrac_text frac exp h2, parseExp_text exp h3]
  rw [← List.map_append, ofDigits_digits, List.length_map, mantissa, expFactor_eq]
  unfold Numeral.value
  cases neg with
  | none => simp
  | some b =>
    cases b
    · simp
    · simp only [decide_true, if_true]
      congr 1
      ring

theorem text_head (n : Numeral) (h : n.Ok) : ∃ c s, n.text = c :: s ∧ c ≠ 'n' ∧ c ≠ 't' ∧ c ≠ 'f' := by
  obtain ⟨neg, whole, frac, exp⟩ := n
  cases whole with
  | nil => exact absurd rfl h.1
  | cons d ds =>
    match neg with
    | some true => exact ⟨'-', _, rfl, by decide⟩
    | some false => exact ⟨'+', _, rfl, by decide⟩
    | none => exact ⟨digitChar d, _, rfl, (digitChar_facts d).1⟩

/-- C51: every written none, true, false and number is read back as that value. -/
theorem C51_value_round_trip (v : Scalar) (t : Str) (h : Writes v t) : parseValue t = v := by
  cases h with
  | none _ h => simp [parseValue, h]
  | true _ h => simp only [parseValue, h]; rfl
  | false _ h => simp only [parseValue, h]; rfl
  | num n _ hn h =>
    obtain ⟨c, s, hs, h1, h2, h3⟩ := text_head n hn
    have e1 : n.text ≠ "none".toList := by
      rw [hs]; intro h; exact h1 (List.cons.inj h).1
    have e2 : n.text ≠ "true".toList := by
      rw [hs]; intro h; exact h2 (List.cons.inj h).1
    have e3 : n.text ≠ "false".toList := by
      rw [hs]; intro h; exact h3 (List.cons.inj h).1
    simp only [parseValue, h, e1, e2, e3, if_false, parseNum_text n hn]

/-- `-12.50E+3`, as an instance of the above. -/
example : Writes (.num (-12500)) "-12.50E+3".toList ∧ Writes .none "None".toList := by
  constructor
  · have := Writes.num ⟨some true, [1, 2], some [5, 0], some (some false, [3])⟩ "-12.50E+3".toList
      (by simp [Numeral.Ok]) (by decide +kernel)
    have e : Numeral.value ⟨some true, [1, 2], some [5, 0], some (some false, [3])⟩ = -12500 := by
      decide +kernel
    rwa [e] at this
  · exact .none _ (by decide +kernel)

/-! ### Decimal texts of integers -/

theorem lower_digits (ds : List (Fin 10)) : lower (ds.map digitChar) = ds.map digitChar := by
  unfold lower
  rw [List.map_map]
  apply List.map_congr_left
  intro d _
  exact (digitChar_facts d).2.2.2.2

/-- C51: the usual decimal text of every integer is read back as that integer. -/
theorem C51_integer_round_trip (ds : List (Fin 10)) (h : ds ≠ []) :
    parseValue (ds.map digitChar) = .num (natOf ds) ∧
    parseValue ('-' :: ds.map digitChar) = .num (-(natOf ds : ℚ)) := by
  have hl := lower_digits ds
  constructor
  · have := C51_value_round_trip _ _ (Writes.num ⟨none, ds, none, none⟩ (ds.map digitChar)
      ⟨h, by simp, by simp⟩ (by simp [Numeral.text, signText, fracText, expText, hl]))
    simpa [Numeral.value, fracVal, expFactor] using this
  · have e : lower ('-' :: ds.map digitChar) = '-' :: ds.map digitChar := by
      unfold lower at hl ⊢
      rw [List.map_cons, hl]
      rfl
    have := C51_value_round_trip _ _ (Writes.num ⟨some true, ds, none, none⟩
      ('-' :: ds.map digitChar) ⟨h, by simp, by simp⟩ (by simp [Numeral.text, signText, fracText, expText, e]))
    simpa [Numeral.value, fracVal, expFactor] using this

/-- C51: for the digits that Mathlib's `Nat.digits` gives for a number. -/
theorem C51_nat_digits_round_trip (n : ℕ) (hn : n ≠ 0) :
    parseValue ((Nat.digits 10 n).reverse.map fun d => Char.ofNat (48 + d)) = .num n := by
  have hlt : ∀ d ∈ Nat.digits 10 n, d < 10 := fun d hd => Nat.digits_lt_base (by norm_num) hd
  let ds : List (Fin 10) := (Nat.digits 10 n).attach.reverse.map fun d => ⟨d.1, hlt d.1 d.2⟩
  have h1 : ds.map digitChar = (Nat.digits 10 n).reverse.map fun d => Char.ofNat (48 + d) := by
    simp only [ds, List.map_map, List.map_reverse]
    congr 1
    conv_rhs => rw [← List.attach_map_subtype_val (Nat.digits 10 n)]
    rw [List.map_map]
    rfl
  have h2 : natOf ds = n := by
    simp only [natOf, ds, List.map_reverse, List.reverse_reverse, List.map_map]
    have : (Nat.digits 10 n).attach.map (Fin.val ∘ fun d => (⟨d.1, hlt d.1 d.2⟩ : Fin 10)) =
        Nat.digits 10 n := List.attach_map_subtype_val _
    rw [this]
    exact Nat.ofDigits_digits 10 n
  have h3 : ds ≠ [] := by
    intro h
    rw [h] at h2
    simp [natOf] at h2
    exact hn h2.symm
  have := (C51_integer_round_trip ds h3).1
  rwa [h1, h2] at this

/-! ### What else is read as a number -/

theorem isDigit_iff (c : Char) (h : isDigit c = true) : ∃ d : Fin 10, c = digitChar d := by
  simp only [isDigit, Bool.and_eq_true, decide_eq_true_eq] at h
  have h1 : 48 ≤ c.toNat := h.1
  have h2 : c.toNat ≤ 57 := h.2
  refine ⟨⟨c.toNat - 48, by omega⟩, ?_⟩
  unfold digitChar
  simp only
  rw [Nat.add_sub_cancel' h1]
  exact (Char.ofNat_toNat c).symm

theorem all_digits_iff (s : Str) (h : ∀ c ∈ s, isDigit c = true) :
    ∃ ds : List (Fin 10), s = ds.map digitChar := by
  induction s with
  | nil => exact ⟨[], rfl⟩
  | cons c s ih =>
    obtain ⟨ds, hds⟩ := ih fun x hx => h x (List.mem_cons_of_mem _ hx)
    obtain ⟨d, hd⟩ := isDigit_iff c (h c List.mem_cons_self)
    exact ⟨d :: ds, by rw [hd, hds]; rfl⟩

theorem takeWhile_all (s : Str) : ∀ c ∈ s.takeWhile isDigit, isDigit c = true := by
  induction s with
  | nil => simp
  | cons x s ih =>
    intro c hc
    rw [List.takeWhile_cons] at hc
    split_ifs at hc with h
    · rcases List.mem_cons.mp hc with rfl | hc
      · exact h
      · exact ih c hc
    · simp at hc

theorem takeSign_inv (s : Str) : ∃ o : Option Bool, s = signText o ++ (takeSign s).2 := by
  unfold takeSign
  split
  · exact ⟨some false, rfl⟩
  · exact ⟨some true, rfl⟩
  · exact ⟨none, rfl⟩

theorem parseExp_inv (s : Str) (e : ℤ) (h : parseExp s = some e) :
    ∃ x : Option (Option Bool × List (Fin 10)), s = expText x ∧ ∀ y, x = some y → y.2 ≠ [] := by
  cases s with
  | nil => exact ⟨none, rfl, by simp⟩
  | cons c s =>
    simp only [parseExp] at h
    obtain ⟨o, ho⟩ := takeSign_inv s
    by_cases h1 : c ≠ 'e'
    case pos => rw [if_pos h1] at h; simp at h
    rw [if_neg h1] at h
    by_cases h2' : (decide ((takeSign s).2 ≠ []) && List.all (takeSign s).2 isDigit) = true
    case neg => rw [if_neg h2'] at h; simp at h
    have h2 : (takeSign s).2 ≠ [] ∧ ∀ c ∈ (takeSign s).2, isDigit c = true := by
      simpa using h2'
    obtain ⟨ds, hds⟩ := all_digits_iff _ h2.2
    refine ⟨some (o, ds), ?_, ?_⟩
    · simp only [ne_eq, not_not] at h1
      rw [h1, ho, hds]
      rfl
    · intro y hy
      simp only [Option.some.injEq] at hy
      rw [← hy]
      intro h3
      simp only at h3
      rw [h3] at hds
      exact h2.1 hds

theorem parseFrac_inv (s fs rest : Str) (h : parseFrac s = some (fs, rest)) :
    ∃ f : Option (List (Fin 10)), s = fracText f ++ rest ∧ f ≠ some [] := by
  cases s with
  | nil =>
    simp only [parseFrac, Option.some.injEq, Prod.mk.injEq] at h
    exact ⟨none, by rw [← h.2]; rfl, by simp⟩
  | cons c s =>
    simp only [parseFrac] at h
    split_ifs at h with h1 h2
    · simp only [Option.some.injEq, Prod.mk.injEq] at h
      exact ⟨none, by rw [← h.2]; rfl, by simp⟩
    · simp only [Option.some.injEq, Prod.mk.injEq] at h
      obtain ⟨ds, hds⟩ := all_digits_iff _ (takeWhile_all s)
      refine ⟨some ds, ?_, ?_⟩
      · simp only [ne_eq, not_not] at h1
        rw [h1, ← h.2]
        simp only [fracText, ← hds, List.cons_append, List.takeWhile_append_dropWhile]
      · simp only [ne_eq, Option.some.injEq]
        intro h3
        rw [h3] at hds
        exact h2 hds

theorem parseNum_inv (s : Str) (q : ℚ) (h : parseNum s = some q) :
    ∃ n : Numeral, n.Ok ∧ s = n.text := by
  unfold parseNum at h
  simp only at h
  by_cases h1 : (takeSign s).2.takeWhile isDigit = []
  case pos => rw [if_pos h1] at h; simp at h
  rw [if_neg h1] at h
  obtain ⟨o, ho⟩ := takeSign_inv s
  obtain ⟨ds, hds⟩ := all_digits_iff _ (takeWhile_all (takeSign s).2)
  split at h
  · simp at h
  case h_2 fs rest hf =>
    split at h
    · simp at h
    case h_2 e he =>
      obtain ⟨f, hf1, hf2⟩ := parseFrac_inv _ _ _ hf
      obtain ⟨x, hx1, hx2⟩ := parseExp_inv _ _ he
      refine ⟨⟨o, ds, f, x⟩, ⟨?_, hf2, hx2⟩, ?_⟩
      · intro h3
        simp only at h3
        rw [h3] at hds
        exact h1 hds
      · unfold Numeral.text
        simp only
        rw [← hds, ← hx1, ← hf1, List.takeWhile_append_dropWhile, ← ho]

/-- C51: a text is read as a number exactly if it writes that number. -/
theorem C51_number_iff (t : Str) (q : ℚ) :
    parseValue t = .num q ↔ ∃ n : Numeral, n.Ok ∧ lower t = n.text ∧ n.value = q := by
  constructor
  · intro h
    unfold parseValue at h
    simp only at h
    split_ifs at h
    split at h
    case h_1 q' hq =>
      obtain ⟨n, hn, ht⟩ := parseNum_inv _ _ hq
      refine ⟨n, hn, ht, ?_⟩
      rw [ht, parseNum_text n hn] at hq
      simp only [Option.some.injEq] at hq
      simp only [Scalar.num.injEq] at h
      rw [hq, h]
    case h_2 => simp at h
  · rintro ⟨n, hn, ht, rfl⟩
    exact C51_value_round_trip _ _ (.num n t hn ht)

/-! ### Lists -/

theorem rstripComma_commas (t : Str) (n : ℕ) (h : t.getLast? ≠ some ',') :
    rstripComma (t ++ List.replicate n ',') = t := by
  unfold rstripComma
  rw [List.reverse_append, List.reverse_replicate]
  have : (List.replicate n ',' ++ t.reverse).dropWhile (· = ',') = t.reverse := by
    induction n with
    | zero =>
      simp only [List.replicate_zero, List.nil_append]
      cases ht : t.reverse with
      | nil => rfl
      | cons c s =>
        have hc : t.getLast? = some c := by rw [List.getLast?_eq_head?_reverse, ht]; rfl
        rw [hc] at h
        simp only [ne_eq, Option.some.injEq] at h
        simp [h]
    | succ n ih => simp [List.replicate_succ, ih]
  rw [this, List.reverse_reverse]

/-- Texts that write a value contain no comma and no hash at the ends. -/
theorem lower_getLast (t : Str) (c : Char) (h : t.getLast? = some c) :
    (lower t).getLast? = some (if 'A' ≤ c && c ≤ 'Z' then Char.ofNat (c.toNat + 32) else c) := by
  unfold lower
  rw [List.getLast?_map, h]
  rfl

theorem lower_head (t : Str) (c : Char) (h : t.head? = some c) :
    (lower t).head? = some (if 'A' ≤ c && c ≤ 'Z' then Char.ofNat (c.toNat + 32) else c) := by
  unfold lower
  rw [List.head?_map, h]
  rfl

theorem text_last (n : Numeral) (h : n.Ok) : ∃ s d, n.text = s ++ [digitChar d] := by
  obtain ⟨neg, whole, frac, exp⟩ := n
  obtain ⟨h1, h2, h3⟩ := h
  simp only at h1 h2 h3
  have key : ∀ (ds : List (Fin 10)), ds ≠ [] → ∃ s d, ds.map digitChar = s ++ [digitChar d] := by
    intro ds hds
    refine ⟨ds.dropLast.map digitChar, ds.getLast hds, ?_⟩
    rw [← List.map_singleton, ← List.map_append, List.dropLast_append_getLast]
  cases exp with
  | some e =>
    obtain ⟨s, d, hs⟩ := key e.2 (h3 e rfl)
    exact ⟨signText neg ++ (whole.map digitChar ++ (fracText frac ++ 'e' :: signText e.1 ++ s)), d,
      by simp [Numeral.text, expText, hs]⟩
  | none =>
    cases frac with
    | some f =>
      obtain ⟨s, d, hs⟩ := key f fun h => h2 (by rw [h])
      exact ⟨signText neg ++ whole.map digitChar ++ '.' :: s, d,
        by simp [Numeral.text, expText, fracText, hs]⟩
    | none =>
      obtain ⟨s, d, hs⟩ := key whole h1
      exact ⟨signText neg ++ s, d, by simp [Numeral.text, fracText, expText, hs]⟩

theorem writes_last (v : Scalar) (t : Str) (h : Writes v t) : t.getLast? ≠ some ',' := by
  intro hc
  have hl := lower_getLast t ',' hc
  have e : (if ('A' ≤ ',' && ',' ≤ 'Z') = true then Char.ofNat (','.toNat + 32) else ',') = ',' := by
    decide
  rw [e] at hl
  cases h with
  | none _ h => rw [h] at hl; revert hl; decide
  | true _ h => rw [h] at hl; revert hl; decide
  | false _ h => rw [h] at hl; revert hl; decide
  | num n _ hn h =>
    obtain ⟨s, d, hs⟩ := text_last n hn
    rw [h, hs] at hl
    simp only [List.getLast?_append, List.getLast?_singleton, Option.some_or, Option.some.injEq] at hl
    exact (digitChar_facts d).2.1 hl

theorem writes_head (v : Scalar) (t : Str) (h : Writes v t) :
    t.head? ≠ some '#' ∧ t ≠ [] ∧ t.head? ≠ some '=' := by
  have key : ∀ c, (c = '#' ∨ c = '=') → t.head? = some c → False := by
    intro c hc' hc
    have hl := lower_head t c hc
    have e : (if ('A' ≤ c && c ≤ 'Z') = true then Char.ofNat (c.toNat + 32) else c) = c := by
      rcases hc' with rfl | rfl <;> decide
    rw [e] at hl
    cases h with
    | none _ h => rw [h] at hl; rcases hc' with rfl | rfl <;> revert hl <;> decide
    | true _ h => rw [h] at hl; rcases hc' with rfl | rfl <;> revert hl <;> decide
    | false _ h => rw [h] at hl; rcases hc' with rfl | rfl <;> revert hl <;> decide
    | num n _ hn h =>
      obtain ⟨neg, whole, frac, exp⟩ := n
      cases whole with
      | nil => exact absurd rfl hn.1
      | cons d ds =>
        rw [h] at hl
        match neg with
        | some true =>
          have : '-' = c := by simpa [Numeral.text, signText] using hl
          rcases hc' with rfl | rfl <;> revert this <;> decide
        | some false =>
          have : '+' = c := by simpa [Numeral.text, signText] using hl
          rcases hc' with rfl | rfl <;> revert this <;> decide
        | none =>
          have : digitChar d = c := by simpa [Numeral.text, signText] using hl
          rcases hc' with rfl | rfl
          · exact (digitChar_facts d).2.2.1 this
          · exact (digitChar_facts d).2.2.2.1 this
  refine ⟨key '#' (Or.inl rfl), ?_, key '=' (Or.inr rfl)⟩
  rintro rfl
  cases h with
  | none _ h => revert h; decide
  | true _ h => revert h; decide
  | false _ h => revert h; decide
  | num n _ hn h =>
    obtain ⟨s, d, hs⟩ := text_last n hn
    rw [hs] at h
    simp [lower] at h

/-- The value several written values stand for: a single one for itself, several for a list. -/
def meaning : List Scalar → Tree
  | [v] => .leaf v
  | vs => .seq (vs.map .leaf)

/-- C51: values written one after another, each followed by any number of commas, are read back as the
list of these values, or as the value itself if it is only one. A comment may follow. -/
theorem C51_list_round_trip (ws : List (Scalar × Str × ℕ)) (h : ∀ w ∈ ws, Writes w.1 w.2.1)
    (comment : List Str) (hc : ∀ c, comment.head? = some c → c.head? = some '#') :
    parseValues (ws.map (fun w => w.2.1 ++ List.replicate w.2.2 ',') ++ comment) =
      meaning (ws.map Prod.fst) := by
  have htake : ((ws.map (fun w => w.2.1 ++ List.replicate w.2.2 ',') ++ comment).takeWhile
      fun t => t.head? ≠ some '#') = ws.map (fun w => w.2.1 ++ List.replicate w.2.2 ',') := by
    induction ws with
    | nil =>
      cases comment with
      | nil => rfl
      | cons c cs => simp [hc c rfl]
    | cons w ws ih =>
      have hw := writes_head _ _ (h w List.mem_cons_self)
      have hh : (w.2.1 ++ List.replicate w.2.2 ',').head? ≠ some '#' := by
        cases ht : w.2.1 with
        | nil => exact absurd ht hw.2.1
        | cons c s =>
          have := hw.1
          rw [ht] at this
          simpa using this
      rw [List.map_cons, List.cons_append, List.takeWhile_cons]
      rw [if_pos (decide_eq_true hh), ih fun x hx => h x (List.mem_cons_of_mem _ hx)]
  have hmap : (ws.map (fun w => w.2.1 ++ List.replicate w.2.2 ',')).map
      (fun t => parseValue (rstripComma t)) = ws.map Prod.fst := by
    rw [List.map_map]
    apply List.map_congr_left
    intro w hw
    have hw' := h w hw
    simp only [Function.comp]
    rw [rstripComma_commas _ _ (writes_last _ _ hw'), C51_value_round_trip _ _ hw']
  unfold parseValues
  rw [htake, hmap]
  generalize ws.map Prod.fst = vs
  match vs with
  | [] => rfl
  | [v] => rfl
  | v :: v' :: vs => rfl

/-- Two numbers separated by a comma without a space are read as one text, not as a list. -/
theorem C51_comma_without_space :
    parseValue "1,2".toList = .str "1,2".toList := by decide +kernel

/-- Texts lose their upper case letters. -/
theorem C51_text_lowercased : parseValue "Foo".toList = .str "foo".toList := by decide +kernel

/-- A number without digits before or after the point is read as a text. -/
theorem C51_bare_point :
    parseValue ".5".toList = .str ".5".toList ∧ parseValue "5.".toList = .str "5.".toList := by
  decide +kernel

example := C51_integer_round_trip [3, 0, 7] (by decide)

example := C51_nat_digits_round_trip 307 (by decide)

example := C51_list_round_trip [(.none, "None".toList, 1), (.bool true, "True".toList, 0)] (by
    intro w hw
    simp only [List.mem_cons, List.not_mem_nil, or_false] at hw
    rcases hw with rfl | rfl
    · exact .none _ (by decide +kernel)
    · exact .true _ (by decide +kernel))
  ["# rest".toList] (fun c hc => by cases hc; decide)

end Specs
end Ade
