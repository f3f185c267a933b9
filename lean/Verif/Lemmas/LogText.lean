import Verif.Model.LogText
import Mathlib.Tactic.Common

/-! Lemmas on the texts of the log: the scanners against declarative patterns, and searching word by word. -/

set_option autoImplicit false

namespace Ade
namespace LogText

/-! ## The patterns -/

/-- `[a-zA-Z]+[_a-zA-Z0-9]*` -/
def IsName (s : Str) : Prop := ∃ c n, s = c :: n ∧ c.isAlpha = true ∧ ∀ x ∈ n, isNameChar x = true

/-- `[\+\-]?[0-9][0-9\.e\E\-\+]*` -/
def IsNumber (s : Str) : Prop :=
  ∃ sign d n, s = sign ++ d :: n ∧ (sign = [] ∨ sign = ['+'] ∨ sign = ['-']) ∧ d.isDigit = true ∧
    ∀ x ∈ n, isNumChar x = true

/-- `\**` -/
def IsStars (s : Str) : Prop := ∀ x ∈ s, x = '*'

/-- `(\s|\>|$)`, with what follows it. -/
def IsEnd (t rest : Str) : Prop :=
  (t = [] ∧ rest = []) ∨ ∃ c, t = c :: rest ∧ (isSpace c = true ∨ c = '>')

/-- The pattern `reParam` without its first group: a match of the beginning of `s`. -/
def ParamMatch (s : Str) (i : Item) (rest : Str) : Prop :=
  ∃ t, s = i.name ++ ['='] ++ i.value ++ i.stars ++ t ∧ IsName i.name ∧ IsNumber i.value ∧
    IsStars i.stars ∧ IsEnd t rest

theorem span_append {p : Char → Bool} {a b : Str} (ha : ∀ c ∈ a, p c = true)
    (hb : ∀ c b', b = c :: b' → p c = false) : (a ++ b).takeWhile p = a ∧ (a ++ b).dropWhile p = b := by
  induction a with
  | nil =>
    cases b with
    | nil => simp
    | cons c b' => simp [hb c b' rfl]
  | cons x a ih =>
    have hx := ha x (by simp)
    obtain ⟨h1, h2⟩ := ih fun c hc => ha c (by simp [hc])
    simp [hx, h1, h2]

theorem of_mem_takeWhile {p : Char → Bool} {x : Char} {s : Str} (h : x ∈ s.takeWhile p) : p x = true := by
  induction s with
  | nil => simp at h
  | cons c s ih =>
    simp only [List.takeWhile_cons] at h
    split at h
    · rename_i hc
      rcases List.mem_cons.1 h with rfl | h
      · exact hc
      · exact ih h
    · simp at h

theorem isNameChar_eq : isNameChar '=' = false := by decide
theorem isNumChar_star : isNumChar '*' = false := by decide

theorem isNumChar_of_end {c : Char} (h : isSpace c = true ∨ c = '>') : isNumChar c = false := by
  rcases h with h | rfl
  · simp only [isSpace, Bool.or_eq_true, beq_iff_eq] at h
    rcases h with ((((rfl | rfl) | rfl) | rfl) | rfl) | rfl <;> decide
  · decide

theorem not_star_of_end {c : Char} (h : isSpace c = true ∨ c = '>') : (c == '*') = false := by
  rcases h with h | rfl
  · simp only [isSpace, Bool.or_eq_true, beq_iff_eq] at h
    rcases h with ((((rfl | rfl) | rfl) | rfl) | rfl) | rfl <;> decide
  · decide

theorem nameAt_iff (s name rest : Str) :
    nameAt s = some (name, rest) ↔ s = name ++ ['='] ++ rest ∧ IsName name := by
  constructor
  · intro h
    cases s with
    | nil => simp [nameAt] at h
    | cons c s =>
      simp only [nameAt] at h
      split at h
      · rename_i hc
        split at h
        · rename_i r hr
          simp only [Option.some.injEq, Prod.mk.injEq] at h
          obtain ⟨rfl, rfl⟩ := h
          refine ⟨?_, c, _, rfl, hc, fun x hx => of_mem_takeWhile hx⟩
          have := List.takeWhile_append_dropWhile (p := isNameChar) (l := s)
          rw [hr] at this
          simp [this]
        · cases h
      · cases h
  · rintro ⟨rfl, c, n, rfl, hc, hn⟩
    obtain ⟨h1, h2⟩ := span_append (p := isNameChar) (a := n) (b := '=' :: rest) hn
      (by rintro c b' h; cases h; exact isNameChar_eq)
    simp [nameAt, hc, h1, h2]

theorem starsAt_iff (s stars rest : Str) :
    starsAt s = some (stars, rest) ↔ ∃ t, s = stars ++ t ∧ IsStars stars ∧ IsEnd t rest := by
  constructor
  · intro h
    have hs := List.takeWhile_append_dropWhile (p := (· == '*')) (l := s)
    have hall : IsStars (s.takeWhile (· == '*')) := fun x hx => by
      simpa using of_mem_takeWhile hx
    simp only [starsAt] at h
    split at h
    · rename_i hd
      simp only [Option.some.injEq, Prod.mk.injEq] at h
      obtain ⟨rfl, rfl⟩ := h
      exact ⟨[], by rw [hd] at hs; simpa using hs.symm, hall, .inl ⟨rfl, rfl⟩⟩
    · rename_i c r hd
      split at h
      · rename_i hc
        simp only [Option.some.injEq, Prod.mk.injEq] at h
        obtain ⟨rfl, rfl⟩ := h
        refine ⟨c :: r, by rw [hd] at hs; exact hs.symm, hall, .inr ⟨c, rfl, by simpa using hc⟩⟩
      · cases h
  · rintro ⟨t, rfl, hst, ht⟩
    obtain ⟨h1, h2⟩ := span_append (p := (· == '*')) (a := stars) (b := t)
      (fun c hc => by simpa using hst c hc) (by
        rintro c b' rfl
        rcases ht with ⟨h, _⟩ | ⟨d, h, hd⟩
        · cases h
        · cases h; exact not_star_of_end hd)
    simp only [starsAt, h1, h2]
    rcases ht with ⟨rfl, rfl⟩ | ⟨d, rfl, hd⟩
    · rfl
    · simp [hd]

theorem numberAt_iff (s v rest : Str) (hrest : ∀ c r, rest = c :: r → isNumChar c = false) :
    numberAt s = some (v, rest) ↔ s = v ++ rest ∧ IsNumber v := by
  constructor
  · intro h
    cases s with
    | nil => simp [numberAt] at h
    | cons c s =>
      simp only [numberAt] at h
      split at h
      · rename_i hc
        split at h
        · rename_i d s'
          split at h
          · rename_i hd
            simp only [Option.some.injEq, Prod.mk.injEq] at h
            obtain ⟨rfl, rfl⟩ := h
            refine ⟨by simp [List.takeWhile_append_dropWhile], [c], d, _, rfl, ?_, hd,
              fun x hx => of_mem_takeWhile hx⟩
            simp only [Bool.or_eq_true, beq_iff_eq] at hc
            rcases hc with rfl | rfl <;> simp
          · cases h
        · cases h
      · split at h
        · rename_i hd
          simp only [Option.some.injEq, Prod.mk.injEq] at h
          obtain ⟨rfl, rfl⟩ := h
          exact ⟨by simp [List.takeWhile_append_dropWhile], [], c, _, rfl, .inl rfl, hd,
            fun x hx => of_mem_takeWhile hx⟩
        · cases h
  · rintro ⟨rfl, sign, d, n, rfl, hs, hd, hn⟩
    obtain ⟨h1, h2⟩ := span_append (p := isNumChar) (a := n) (b := rest) hn hrest
    have hd' : (d == '+' || d == '-') = false := by
      by_contra hc
      simp only [Bool.not_eq_false, Bool.or_eq_true, beq_iff_eq] at hc
      rcases hc with rfl | rfl <;> exact absurd hd (by decide)
    rcases hs with rfl | rfl | rfl
    · simp [numberAt, hd', hd, h1, h2]
    · simp [numberAt, hd, h1, h2]
    · simp [numberAt, hd, h1, h2]

/-- The scanner finds exactly the matches of the pattern. -/
theorem paramAt_iff (s : Str) (i : Item) (rest : Str) :
    paramAt s = some (i, rest) ↔ ParamMatch s i rest := by
  obtain ⟨name, value, stars⟩ := i
  have stop : ∀ {t r : Str}, IsStars stars → IsEnd t r → ∀ c u, stars ++ t = c :: u → isNumChar c = false := by
    intro t r hst ht c u h
    cases hs : stars with
    | nil =>
      rw [hs] at h
      rcases ht with ⟨rfl, -⟩ | ⟨d, rfl, hd⟩
      · cases h
      · cases h; exact isNumChar_of_end hd
    | cons x xs =>
      rw [hs] at h
      have := hst x (by simp [hs])
      cases h
      rw [this]; exact isNumChar_star
  constructor
  · intro h
    simp only [paramAt] at h
    split at h
    · cases h
    · rename_i n s1 h1
      split at h
      · cases h
      · rename_i v s2 h2
        split at h
        · cases h
        · rename_i st r h3
          simp only [Option.some.injEq, Prod.mk.injEq, Item.mk.injEq] at h
          obtain ⟨⟨rfl, rfl, rfl⟩, rfl⟩ := h
          obtain ⟨rfl, hn⟩ := (nameAt_iff _ _ _).1 h1
          obtain ⟨t, rfl, hst, ht⟩ := (starsAt_iff _ _ _).1 h3
          obtain ⟨rfl, hv⟩ := (numberAt_iff _ _ _ (stop hst ht)).1 h2
          exact ⟨t, by simp, hn, hv, hst, ht⟩
  · rintro ⟨t, rfl, hn, hv, hst, ht⟩
    have h1 := (nameAt_iff _ name (value ++ stars ++ t)).2 ⟨rfl, hn⟩
    have h2 := (numberAt_iff (value ++ (stars ++ t)) value _ (stop hst ht)).2 ⟨rfl, hv⟩
    have h3 := (starsAt_iff (stars ++ t) stars rest).2 ⟨t, rfl, hst, ht⟩
    simp only [List.append_assoc] at h1 ⊢
    simp only [paramAt, h1, h2, h3]

theorem ParamMatch.length {s : Str} {i : Item} {rest : Str} (h : ParamMatch s i rest) :
    rest.length < s.length := by
  obtain ⟨t, rfl, _, _, _, ht⟩ := h
  have : rest.length ≤ t.length := by
    rcases ht with ⟨rfl, rfl⟩ | ⟨c, rfl, _⟩ <;> simp
  simp only [List.length_append, List.length_cons, List.length_nil]
  omega

theorem spaceSearch_length {s : Str} {i : Item} {rest : Str} (h : spaceSearch s = some (i, rest)) :
    rest.length < s.length := by
  induction s with
  | nil => simp [spaceSearch] at h
  | cons c s ih =>
    simp only [spaceSearch] at h
    split at h
    · split at h
      · rename_i r hr
        cases h
        have := ((paramAt_iff _ _ _).1 hr).length
        simp only [List.length_cons]; omega
      · have := ih h; simp only [List.length_cons]; omega
    · have := ih h; simp only [List.length_cons]; omega

theorem paramSearch_length {s : Str} {i : Item} {rest : Str} (h : paramSearch s = some (i, rest)) :
    rest.length < s.length := by
  simp only [paramSearch] at h
  split at h
  · rename_i r hr
    cases h
    exact ((paramAt_iff _ _ _).1 hr).length
  · exact spaceSearch_length h

theorem paramsAux_fuel (n : ℕ) (s : Str) (h : s.length ≤ n) : paramsAux n s = params s := by
  induction n using Nat.strong_induction_on generalizing s with
  | _ n ih =>
    unfold params
    cases n with
    | zero =>
      have : s.length = 0 := by omega
      rw [this]
    | succ n =>
      cases hs : s.length with
      | zero =>
        have : s = [] := List.length_eq_zero_iff.1 hs
        subst this
        simp [paramsAux, paramSearch, paramAt, nameAt, spaceSearch]
      | succ m =>
        simp only [paramsAux]
        cases hp : paramSearch s with
        | none => rfl
        | some r =>
          obtain ⟨i, rest⟩ := r
          have hl := paramSearch_length hp
          simp only
          rw [ih n (by omega) rest (by omega), ih m (by omega) rest (by omega)]

/-- Searching repeatedly, without the bound. -/
theorem params_eq (s : Str) : params s = match paramSearch s with
    | none => []
    | some (i, rest) => i :: params rest := by
  cases hs : s.length with
  | zero =>
    have : s = [] := List.length_eq_zero_iff.1 hs
    subst this
    simp [params, paramsAux, paramSearch, paramAt, nameAt, spaceSearch]
  | succ n =>
    rw [params, hs, paramsAux]
    cases hp : paramSearch s with
    | none => rfl
    | some r =>
      obtain ⟨i, rest⟩ := r
      have := paramSearch_length hp
      simp only
      rw [paramsAux_fuel n rest (by omega)]

/-! ## Word by word -/

/-- A parameter that can be read back. -/
structure Item.Ok (i : Item) : Prop where
  name : IsName i.name
  value : IsNumber i.value
  stars : IsStars i.stars

/-- The text of a parameter. -/
def Item.text (i : Item) : Str := i.name ++ ['='] ++ i.value ++ i.stars

/-- A word without an equal sign or white space. -/
def Plain (w : Str) : Prop := ∀ c ∈ w, c ≠ '=' ∧ isSpace c = false

theorem params_item {i : Item} (hi : i.Ok) (c : Char) (r : Str) (hc : isSpace c = true ∨ c = '>') :
    params (i.text ++ c :: r) = i :: params r := by
  have : paramAt (i.text ++ c :: r) = some (i, r) :=
    (paramAt_iff _ _ _).2 ⟨c :: r, rfl, hi.1, hi.2, hi.3, .inr ⟨c, rfl, hc⟩⟩
  rw [params_eq]
  simp [paramSearch, this]

theorem params_item_end {i : Item} (hi : i.Ok) : params i.text = [i] := by
  have : paramAt i.text = some (i, []) :=
    (paramAt_iff _ _ _).2 ⟨[], by simp [Item.text], hi.1, hi.2, hi.3, .inl ⟨rfl, rfl⟩⟩
  rw [params_eq]
  simp only [paramSearch, this]
  rfl

theorem nameAt_no_eq {w r : Str} (hw : ∀ c ∈ w, c ≠ '=') (hr : ∀ c r', r = c :: r' → isNameChar c = false ∧ c ≠ '=') :
    nameAt (w ++ r) = none := by
  cases h : nameAt (w ++ r) with
  | none => rfl
  | some q =>
    exfalso
    obtain ⟨name, rest⟩ := q
    obtain ⟨heq, c, n, rfl, hc, hn⟩ := (nameAt_iff _ _ _).1 h
    have hname : ∀ x ∈ c :: n, isNameChar x = true := by
      intro x hx
      rcases List.mem_cons.1 hx with rfl | hx
      · simp [isNameChar, Char.isAlphanum, hc]
      · exact hn x hx
    generalize c :: n = name at *
    -- the equal sign is not in `w`, and what follows `w` ends the name
    have hlen : name.length < w.length ∨ w.length ≤ name.length := by omega
    rcases hlen with hlt | hle
    · have : (w ++ r)[name.length]? = some '=' := by rw [heq]; simp
      rw [List.getElem?_append_left hlt] at this
      exact hw '=' (List.mem_of_getElem? this) rfl
    · have hx : (w ++ r)[w.length]? = r[0]? := by rw [List.getElem?_append_right le_rfl, Nat.sub_self]
      cases r with
      | nil =>
        have := congrArg List.length heq
        simp at this; omega
      | cons d r' =>
        obtain ⟨h1, h2⟩ := hr d r' rfl
        rw [heq] at hx
        rcases lt_or_eq_of_le hle with hlt | he
        · have : name[w.length]? = some d := by
            rw [List.append_assoc, List.getElem?_append_left hlt] at hx; simpa using hx
          have := hname d (List.mem_of_getElem? this)
          rw [h1] at this; cases this
        · rw [he] at hx
          simp at hx
          exact h2 hx.symm

theorem not_name_of_space {c : Char} (h : isSpace c = true) : isNameChar c = false ∧ c ≠ '=' := by
  simp only [isSpace, Bool.or_eq_true, beq_iff_eq] at h
  rcases h with ((((rfl | rfl) | rfl) | rfl) | rfl) | rfl <;> decide

theorem spaceSearch_nospace {w r : Str} (hw : ∀ c ∈ w, isSpace c = false) :
    spaceSearch (w ++ r) = spaceSearch r := by
  induction w with
  | nil => rfl
  | cons c w ih =>
    have hc := hw c (by simp)
    simp [spaceSearch, hc, ih fun c hc => hw c (by simp [hc])]

theorem paramAt_of_nameAt_none {s : Str} (h : nameAt s = none) : paramAt s = none := by
  simp [paramAt, h]

/-- A plain word before a space is skipped. -/
theorem params_plain {w : Str} (hw : Plain w) (c : Char) (r : Str) (hc : isSpace c = true) :
    params (w ++ c :: r) = params r := by
  have h1 : paramSearch (w ++ c :: r) = paramSearch r := by
    have hn : nameAt (w ++ c :: r) = none :=
      nameAt_no_eq (fun x hx => (hw x hx).1) (by rintro d r' h; cases h; exact not_name_of_space hc)
    rw [paramSearch, paramAt_of_nameAt_none hn]
    simp only
    rw [spaceSearch_nospace fun x hx => (hw x hx).2]
    simp [spaceSearch, hc, paramSearch]
  rw [params_eq, h1, ← params_eq]

theorem spaceSearch_no_eq {s : Str} (h : ∀ c ∈ s, c ≠ '=') : spaceSearch s = none := by
  induction s with
  | nil => rfl
  | cons c s ih =>
    have hs : ∀ c ∈ s, c ≠ '=' := fun c hc => h c (by simp [hc])
    have hn : nameAt s = none := by
      have := nameAt_no_eq (w := s) (r := []) hs (by simp)
      simpa using this
    simp [spaceSearch, paramAt_of_nameAt_none hn, ih hs]

theorem params_no_eq {s : Str} (h : ∀ c ∈ s, c ≠ '=') : params s = [] := by
  have hn : nameAt s = none := by
    have := nameAt_no_eq (w := s) (r := []) h (by simp)
    simpa using this
  rw [params_eq]
  simp [paramSearch, paramAt_of_nameAt_none hn, spaceSearch_no_eq h]

/-- A word of a line: a parameter or a plain word. -/
inductive Word where
  | item (i : Item)
  | plain (w : Str)

/-- Its text. -/
def Word.text : Word → Str
  | .item i => i.text
  | .plain w => w

/-- It can be told apart. -/
def Word.Ok : Word → Prop
  | .item i => i.Ok
  | .plain w => Plain w

/-- The parameter it is. -/
def Word.item? : Word → Option Item
  | .item i => some i
  | .plain _ => none

/-- What may follow the last word on a line. -/
def LineEnd (t : Str) : Prop := t = [] ∨ t = ['\n'] ∨ t = ['>'] ∨ t = ['>', '\n']

/-- The parameters found in a line are those among its words, in order. -/
theorem params_words (ws : List Word) (hw : ∀ w ∈ ws, w.Ok) (t : Str) (ht : LineEnd t) :
    params (join [' '] (ws.map Word.text) ++ t) = ws.filterMap Word.item? := by
  have hend : ∀ c ∈ t, c ≠ '=' := by
    rcases ht with rfl | rfl | rfl | rfl <;> decide
  induction ws with
  | nil => simp [join, params_no_eq hend]
  | cons w ws ih =>
    have hok := hw w (by simp)
    cases ws with
    | nil =>
      cases w with
      | plain w =>
        simp only [List.map_cons, List.map_nil, join, Word.text, List.filterMap_cons, Word.item?,
          List.filterMap_nil]
        apply params_no_eq
        intro c hc
        rcases List.mem_append.1 hc with hc | hc
        · exact (hok c hc).1
        · exact hend c hc
      | item i =>
        simp only [List.map_cons, List.map_nil, join, Word.text, List.filterMap_cons, Word.item?,
          List.filterMap_nil]
        have hok : i.Ok := hok
        rcases ht with rfl | rfl | rfl | rfl
        · simp [params_item_end hok]
        · rw [params_item hok _ _ (.inl (by decide)), params_no_eq (by simp)]
        · rw [params_item hok _ _ (.inr rfl), params_no_eq (by simp)]
        · rw [params_item hok _ _ (.inr rfl), params_no_eq (by decide)]
    | cons w' ws =>
      have IH := ih fun x hx => hw x (by simp [hx])
      simp only [List.map_cons, join] at IH ⊢
      cases w with
      | plain w =>
        rw [show (Word.plain w).text = w from rfl]
        simp only [List.append_assoc, List.cons_append, List.nil_append]
        rw [params_plain hok ' ' _ (by decide), IH]
        rfl
      | item i =>
        rw [show (Word.item i).text = i.text from rfl]
        simp only [List.append_assoc, List.cons_append, List.nil_append]
        rw [params_item hok ' ' _ (.inl (by decide)), IH]
        rfl

/-! ## Wrapping -/

theorem takeLine_append (width len : ℕ) (ws : List Str) :
    (takeLine width len ws).1 ++ (takeLine width len ws).2 = ws := by
  induction ws generalizing len with
  | nil => rfl
  | cons w ws ih =>
    simp only [takeLine]
    split
    · simp [ih]
    · rfl

/-- Total length of words put after `len` characters. -/
def lineLength (len : ℕ) (ws : List Str) : ℕ := len + (ws.map fun w => 1 + w.length).sum

theorem join_length (w : Str) (ws : List Str) : (join [' '] (w :: ws)).length = lineLength w.length ws := by
  induction ws generalizing w with
  | nil => simp [join, lineLength]
  | cons w' ws ih =>
    simp only [join, List.length_append, ih, lineLength, List.map_cons, List.sum_cons, List.length_cons,
      List.length_nil]
    omega

theorem takeLine_length (width len : ℕ) (ws : List Str) (h : len ≤ width) :
    lineLength len (takeLine width len ws).1 ≤ width := by
  induction ws generalizing len with
  | nil => simpa [takeLine, lineLength] using h
  | cons w ws ih =>
    simp only [takeLine]
    split
    · rename_i hw
      have := ih _ hw
      simp only [lineLength, List.map_cons, List.sum_cons] at this ⊢
      omega
    · simpa [lineLength] using h

theorem takeLine_full (width len : ℕ) (ws : List Str) (w : Str) (rest : List Str)
    (h : (takeLine width len ws).2 = w :: rest) :
    width < lineLength len (takeLine width len ws).1 + 1 + w.length := by
  induction ws generalizing len with
  | nil => simp [takeLine] at h
  | cons x ws ih =>
    simp only [takeLine] at h ⊢
    split at h
    · rename_i hx
      rw [if_pos hx]
      have := ih _ h
      simp only [lineLength, List.map_cons, List.sum_cons] at this ⊢
      omega
    · rename_i hx
      rw [if_neg hx]
      cases h
      simp [lineLength]
      omega

theorem wrapAux_flatten (width fuel : ℕ) (ws : List Str) (h : ws.length ≤ fuel) :
    (wrapAux width fuel ws).flatten = ws := by
  induction fuel generalizing ws with
  | zero =>
    have : ws = [] := List.length_eq_zero_iff.1 (by omega)
    subst this; rfl
  | succ fuel ih =>
    cases ws with
    | nil => rfl
    | cons w ws =>
      have ha := takeLine_append width w.length ws
      have hl : (takeLine width w.length ws).2.length ≤ fuel := by
        have := congrArg List.length ha
        simp only [List.length_append, List.length_cons] at this h
        omega
      simp only [wrapAux, List.flatten_cons, ih _ hl, List.cons_append, ha]

theorem wrapAux_ne_nil (width fuel : ℕ) (ws : List Str) : ∀ g ∈ wrapAux width fuel ws, g ≠ [] := by
  induction fuel generalizing ws with
  | zero => simp [wrapAux]
  | succ fuel ih =>
    cases ws with
    | nil => simp [wrapAux]
    | cons w ws =>
      intro g hg
      simp only [wrapAux, List.mem_cons] at hg
      rcases hg with rfl | hg
      · simp
      · exact ih _ g hg

theorem wrapAux_length (width fuel : ℕ) (ws : List Str) (h : ∀ w ∈ ws, w.length ≤ width) :
    ∀ g ∈ wrapAux width fuel ws, (join [' '] g).length ≤ width := by
  induction fuel generalizing ws with
  | zero => simp [wrapAux]
  | succ fuel ih =>
    cases ws with
    | nil => simp [wrapAux]
    | cons w ws =>
      intro g hg
      simp only [wrapAux, List.mem_cons] at hg
      have ha := takeLine_append width w.length ws
      rcases hg with rfl | hg
      · rw [join_length]
        exact takeLine_length _ _ _ (h w (by simp))
      · refine ih _ ?_ g hg
        intro x hx
        refine h x (List.mem_cons_of_mem _ ?_)
        rw [← ha]; exact List.mem_append_right _ hx

theorem wrapAux_head (width fuel : ℕ) (w : Str) (ws : List Str) :
    ∃ g gs, wrapAux width (fuel + 1) (w :: ws) = (w :: g) :: gs :=
  ⟨_, _, rfl⟩

/-! ## Splitting and stripping -/

theorem splitAux_nospace (cur w : Str) (hw : ∀ c ∈ w, isSpace c = false) (s : Str) :
    splitAux cur (w ++ s) = splitAux (w.reverse ++ cur) s := by
  induction w generalizing cur with
  | nil => rfl
  | cons c w ih =>
    have hc := hw c (by simp)
    simp [splitAux, hc, ih (c :: cur) fun x hx => hw x (by simp [hx])]

theorem splitAux_append (cur s t : Str) (c : Char) (hc : isSpace c = true) :
    splitAux cur (s ++ c :: t) = splitAux cur s ++ splitAux [] t := by
  induction s generalizing cur with
  | nil =>
    simp only [List.nil_append, splitAux, hc, if_true]
    split <;> simp
  | cons x s ih =>
    simp only [List.cons_append, splitAux]
    split
    · split
      · exact ih []
      · simp [ih []]
    · exact ih _

/-- A space separates. -/
theorem split_append (s t : Str) (c : Char) (hc : isSpace c = true) :
    split (s ++ c :: t) = split s ++ split t := splitAux_append [] s t c hc

theorem split_spaces (s : Str) (h : ∀ c ∈ s, isSpace c = true) : split s = [] := by
  induction s with
  | nil => rfl
  | cons c s ih =>
    have hc := h c (by simp)
    have := ih fun x hx => h x (by simp [hx])
    simp [split, splitAux, hc]; exact this

theorem split_word (w : Str) (hne : w ≠ []) (hw : ∀ c ∈ w, isSpace c = false) : split w = [w] := by
  have := splitAux_nospace [] w hw []
  simp only [List.append_nil] at this
  rw [split, this, splitAux, if_neg (by simpa using hne), List.reverse_reverse]

theorem split_cons_space (c : Char) (s : Str) (hc : isSpace c = true) : split (c :: s) = split s := by
  simp [split, splitAux, hc]

theorem split_dropWhile (s : Str) : split (s.dropWhile isSpace) = split s := by
  induction s with
  | nil => rfl
  | cons c s ih =>
    simp only [List.dropWhile_cons]
    split
    · rename_i hc; rw [ih, split_cons_space c s hc]
    · rfl

theorem split_append_spaces (s t : Str) (h : ∀ c ∈ t, isSpace c = true) : split (s ++ t) = split s := by
  cases t with
  | nil => simp
  | cons c t =>
    rw [split_append s t c (h c (by simp)), split_spaces t fun x hx => h x (by simp [hx]), List.append_nil]

/-- Dropping white space at the end. -/
def rstrip (s : Str) : Str := (s.reverse.dropWhile isSpace).reverse

theorem strip_eq (s : Str) : strip s = rstrip (s.dropWhile isSpace) := rfl

theorem rstrip_append (s : Str) : ∃ t, s = rstrip s ++ t ∧ ∀ c ∈ t, isSpace c = true := by
  refine ⟨(s.reverse.takeWhile isSpace).reverse, ?_, ?_⟩
  · have := List.takeWhile_append_dropWhile (p := isSpace) (l := s.reverse)
    have := congrArg List.reverse this
    rw [List.reverse_append, List.reverse_reverse] at this
    exact this.symm
  · intro c hc
    exact of_mem_takeWhile (List.mem_reverse.1 hc)

theorem split_rstrip (s : Str) : split (rstrip s) = split s := by
  obtain ⟨t, ht, hsp⟩ := rstrip_append s
  conv_rhs => rw [ht]
  rw [split_append_spaces _ _ hsp]

theorem split_strip (s : Str) : split (strip s) = split s := by
  rw [strip_eq, split_rstrip, split_dropWhile]

theorem rstrip_cons_nonspace (c : Char) (s : Str) (hc : isSpace c = false) :
    rstrip (c :: s) = c :: rstrip s := by
  simp only [rstrip, List.reverse_cons]
  have : ∀ u : Str, (u ++ [c]).dropWhile isSpace = u.dropWhile isSpace ++ [c] := by
    intro u
    induction u with
    | nil => simp [hc]
    | cons x u ih =>
      simp only [List.cons_append, List.dropWhile_cons]
      split
      · exact ih
      · rfl
  rw [this]; simp

theorem rstrip_append_of_nonspace (a s : Str) (c : Char) (hc : isSpace c = false) :
    rstrip (a ++ c :: s) = a ++ c :: rstrip s := by
  obtain ⟨t, ht, hsp⟩ := rstrip_append s
  have key : ∀ u v : Str, (∀ x ∈ v, isSpace x = true) → rstrip (u ++ v) = rstrip u := by
    intro u v hv
    simp only [rstrip, List.reverse_append]
    congr 1
    have : ∀ w : Str, (∀ x ∈ w, isSpace x = true) → (w ++ u.reverse).dropWhile isSpace = u.reverse.dropWhile isSpace := by
      intro w hw
      induction w with
      | nil => rfl
      | cons x w ih => simp [hw x (by simp), ih fun y hy => hw y (by simp [hy])]
    exact this _ fun x hx => hv x (List.mem_reverse.1 hx)
  have hlast : ∀ u : Str, (u = [] ∨ ∃ d v, u.reverse = d :: v ∧ isSpace d = false) → rstrip u = u := by
    rintro u (rfl | ⟨d, v, hu, hd⟩)
    · rfl
    · rw [rstrip, hu, List.dropWhile_cons, hd]
      simp only [Bool.false_eq_true, if_false]
      rw [← hu, List.reverse_reverse]
  -- the end of `rstrip s` is not a space
  have hend : rstrip s = [] ∨ ∃ d v, (rstrip s).reverse = d :: v ∧ isSpace d = false := by
    simp only [rstrip, List.reverse_reverse]
    have : ∀ u : Str, u.dropWhile isSpace = [] ∨ ∃ d v, u.dropWhile isSpace = d :: v ∧ isSpace d = false := by
      intro u
      induction u with
      | nil => exact .inl rfl
      | cons x u ih =>
        simp only [List.dropWhile_cons]
        split
        · exact ih
        · rename_i hx; exact .inr ⟨x, u, rfl, by simpa using hx⟩
    rcases this s.reverse with h | ⟨d, v, h, hd⟩
    · left; rw [h]; rfl
    · right; exact ⟨d, v, h, hd⟩
  conv_lhs => rw [ht]
  rw [show a ++ c :: (rstrip s ++ t) = (a ++ c :: rstrip s) ++ t by simp, key _ _ hsp]
  apply hlast
  right
  rcases hend with h | ⟨d, v, h, hd⟩
  · exact ⟨c, a.reverse, by rw [h]; simp, hc⟩
  · exact ⟨d, v ++ c :: a.reverse, by simp [h], hd⟩

theorem dropWhile_append_nonspace (a s : Str) (c : Char) (hc : isSpace c = false) :
    (a ++ c :: s).dropWhile isSpace = a.dropWhile isSpace ++ c :: s := by
  induction a with
  | nil => simp [hc]
  | cons x a ih =>
    simp only [List.cons_append, List.dropWhile_cons]
    split
    · exact ih
    · rfl

/-- Stripping a text with a character in it that is no white space. -/
theorem strip_around (a s : Str) (c : Char) (hc : isSpace c = false) :
    strip (a ++ c :: s) = a.dropWhile isSpace ++ c :: rstrip s := by
  rw [strip_eq, dropWhile_append_nonspace a s c hc, rstrip_append_of_nonspace _ _ _ hc]

/-- Nothing is stripped from a text without white space at its ends. -/
theorem strip_self (c : Char) (s : Str) (d : Char) (hc : isSpace c = false) (hd : isSpace d = false)
    (h : (c :: s).getLast? = some d) : strip (c :: s) = c :: s := by
  obtain ⟨u, hu⟩ := List.getLast?_eq_some_iff.1 h
  have h1 : (c :: s).dropWhile isSpace = c :: s := by simp [hc]
  rw [strip_eq, h1, hu, rstrip]
  simp [hd]

theorem strip_blank (s : Str) : strip s = [] ↔ ∀ c ∈ s, isSpace c = true := by
  constructor
  · intro h c hc
    by_contra hs
    obtain ⟨a, b, rfl⟩ := List.append_of_mem hc
    rw [strip_around a b c (by simpa using hs)] at h
    simp at h
  · intro h
    have : s.dropWhile isSpace = [] := by
      induction s with
      | nil => rfl
      | cons c s ih =>
        rw [List.dropWhile_cons, h c (by simp), if_pos rfl]
        exact ih fun x hx => h x (by simp [hx])
    rw [strip_eq, this]; rfl

theorem splitBarAux_part (cur a s : Str) (ha : '|' ∉ a) :
    splitBarAux cur (a ++ s) = splitBarAux (a.reverse ++ cur) s := by
  induction a generalizing cur with
  | nil => rfl
  | cons c a ih =>
    have hc : (c == '|') = false := by
      simp only [beq_eq_false_iff_ne]; rintro rfl; simp at ha
    simp [splitBarAux, hc, ih (c :: cur) fun h => ha (by simp [h])]

theorem splitBar_two (a b : Str) (ha : '|' ∉ a) (hb : '|' ∉ b) : splitBar (a ++ '|' :: b) = [a, b] := by
  rw [splitBar, splitBarAux_part [] a _ ha]
  simp only [splitBarAux, List.append_nil, beq_self_eq_true, if_true, List.reverse_reverse]
  have := splitBarAux_part [] b [] hb
  simp only [List.append_nil] at this
  rw [this]
  simp [splitBarAux]

/-! ## Dicts -/

theorem foldl_put (is : List Item) (pd : PD) (h : ((pd ++ is).map Item.name).Nodup) :
    is.foldl put pd = pd ++ is := by
  induction is generalizing pd with
  | nil => simp
  | cons i is ih =>
    have hi : put pd i = pd ++ [i] := by
      unfold put
      rw [if_neg]
      simp only [List.any_eq_true, beq_iff_eq, not_exists, not_and]
      intro j hj hn
      rw [List.map_append, List.nodup_append] at h
      exact h.2.2 _ (List.mem_map_of_mem hj) _ (by simp) hn
    rw [List.foldl_cons, hi, ih _ (by simpa using h)]
    simp

theorem get_of_mem {pd : PD} {i : Item} (hi : i ∈ pd) (h : (pd.map Item.name).Nodup) :
    get pd i.name = some i := by
  induction pd with
  | nil => simp at hi
  | cons j pd ih =>
    simp only [get, List.find?_cons]
    simp only [List.map_cons, List.nodup_cons] at h
    rcases List.mem_cons.1 hi with rfl | hi
    · simp
    · have : (j.name == i.name) = false := by
        simp only [beq_eq_false_iff_ne]
        intro he
        exact h.1 (by rw [he]; exact List.mem_map_of_mem hi)
      rw [this]
      exact ih hi h.2

end LogText
end Ade
