import Verif.Model.HelpText

/-!
# C165: the help text of an option
-/

set_option autoImplicit false

namespace Ade
namespace HelpText

/-- The text has the word "default" in it, in whatever case. -/
def Mentions (t : Str) : Prop := ∃ a w b, t = a ++ w ++ b ∧ w.map Char.toLower = "default".toList

/-- No curly brackets. -/
def Plain (t : Str) : Prop := '{' ∉ t ∧ '}' ∉ t

/-- The text with its curly brackets doubled. -/
def doubled (t : Str) : Str := t.flatMap fun c => if c = '{' ∨ c = '}' then [c, c] else [c]

/-! ## Lemmas -/

theorem contains_iff (w s : Str) : contains w s = true ↔ w <:+: s := by
  induction s with
  | nil => simp [contains]
  | cons c s ih => rw [contains, Bool.or_eq_true, ih, List.isPrefixOf_iff_prefix, List.infix_cons_iff]

theorem mentions_iff (t : Str) : contains "default".toList (lower t) = true ↔ Mentions t := by
  rw [contains_iff]
  constructor
  · rintro ⟨a, b, h⟩
    unfold lower at h
    obtain ⟨l1, l2, e, e1, e2⟩ := List.map_eq_append_iff.1 h.symm
    obtain ⟨m1, m2, f, f1, f2⟩ := List.map_eq_append_iff.1 e1
    exact ⟨m1, m2, l2, by rw [e, f], f2⟩
  · rintro ⟨a, w, b, e, h⟩
    refine ⟨a.map Char.toLower, b.map Char.toLower, ?_⟩
    rw [lower, e, List.map_append, List.map_append, h]

theorem plain_cons {c : Char} {t : Str} (h : Plain (c :: t)) : c ≠ '{' ∧ c ≠ '}' ∧ Plain t := by
  unfold Plain at *
  simp only [List.mem_cons, not_or] at h
  exact ⟨fun e => h.1.1 e.symm, fun e => h.2.1 e.symm, h.1.2, h.2.2⟩

theorem prepend_prepend (p q : Str) (r : Result) : (r.prepend q).prepend p = r.prepend (p ++ q) := by
  cases r <;> simp [Result.prepend]

theorem prepend_nil (r : Result) : r.prepend [] = r := by cases r <;> rfl

theorem format_cons (arg : Str) (u : Bool) {c : Char} (h1 : c ≠ '{') (h2 : c ≠ '}') (s : Str) :
    format arg u (c :: s) = (format arg u s).prepend [c] := by
  rw [format.eq_def]
  split <;> simp_all

theorem format_plain (arg : Str) (u : Bool) (a s : Str) (h : Plain a) : format arg u (a ++ s) = (format arg u s).prepend a := by
  induction a with
  | nil => rw [List.nil_append, prepend_nil]
  | cons c a ih =>
    obtain ⟨h1, h2, h3⟩ := plain_cons h
    rw [List.cons_append, format_cons arg u h1 h2, ih h3, prepend_prepend]
    rfl

theorem format_end (arg : Str) (u : Bool) (a : Str) (h : Plain a) : format arg u a = .text a := by
  have := format_plain arg u a [] h
  rw [List.append_nil] at this
  rw [this]
  simp [format, Result.prepend]

theorem format_field (arg : Str) (s : Str) : format arg false ('{' :: '}' :: s) = (format arg true s).prepend arg := by
  simp [format]

theorem format_second (arg : Str) (s : Str) : format arg true ('{' :: '}' :: s) = .error := by simp [format]

theorem format_doubled (arg : Str) (u : Bool) (a s : Str) :
    format arg u (doubled a ++ s) = (format arg u s).prepend a := by
  induction a with
  | nil => exact (prepend_nil _).symm
  | cons c a ih =>
    have e : doubled (c :: a) = (if c = '{' ∨ c = '}' then [c, c] else [c]) ++ doubled a := rfl
    rw [e, List.append_assoc]
    by_cases h1 : c = '{'
    · subst h1
      simp only [true_or, if_true, List.cons_append, List.nil_append]
      rw [format, ih, prepend_prepend]
      rfl
    by_cases h2 : c = '}'
    · subst h2
      simp only [or_true, if_true, List.cons_append, List.nil_append]
      rw [format, ih, prepend_prepend]
      rfl
    · rw [if_neg (by tauto), List.cons_append, List.nil_append, format_cons arg u h1 h2, ih, prepend_prepend]
      rfl

theorem has_field (a b : Str) : contains ['{', '}'] (a ++ '{' :: '}' :: b) = true :=
  (contains_iff _ _).2 ⟨a, b, by simp⟩

/-! ## Theorems -/

/-- C165: a text without curly brackets is kept, and the default value is put in square brackets behind it unless the text has the
word "default" in it. -/
theorem C165_plain (text default dest : Str) (h : Plain text) :
    (Mentions text → addDefault text default dest = .text text) ∧
    (¬ Mentions text → addDefault text default dest = .text (text ++ " [".toList ++ default ++ "]".toList)) := by
  have hl : withLetter text dest = .text text := by
    unfold withLetter
    split_ifs
    · exact format_end _ _ _ h
    · rfl
  unfold addDefault
  rw [hl]
  dsimp only
  unfold withDefault
  constructor
  · intro hm; rw [if_pos ((mentions_iff _).2 hm)]
  · intro hm; rw [if_neg (fun h' => hm ((mentions_iff _).1 h'))]

/-- C165: a `{}` in the text is replaced by the option's letter, everything else is as without it. -/
theorem C165_letter (a b default dest : Str) (ha : Plain a) (hb : Plain b) (hd : dest ≠ []) :
    (Mentions (a ++ dest ++ b) → addDefault (a ++ "{}".toList ++ b) default dest = .text (a ++ dest ++ b)) ∧
    (¬ Mentions (a ++ dest ++ b) →
      addDefault (a ++ "{}".toList ++ b) default dest = .text (a ++ dest ++ b ++ " [".toList ++ default ++ "]".toList)) := by
  have e : a ++ "{}".toList ++ b = a ++ '{' :: '}' :: b := by simp
  have hl : withLetter (a ++ "{}".toList ++ b) dest = .text (a ++ dest ++ b) := by
    unfold withLetter
    rw [e, if_pos (by rw [has_field]; simpa using hd), format_plain _ _ _ _ ha, format_field, format_end _ _ _ hb]
    simp [Result.prepend]
  unfold addDefault
  rw [hl]
  dsimp only
  unfold withDefault
  constructor
  · intro hm; rw [if_pos ((mentions_iff _).2 hm)]
  · intro hm; rw [if_neg (fun h' => hm ((mentions_iff _).1 h'))]

/-- C165: curly brackets for the help text itself are written twice beside a `{}`. -/
theorem C165_doubled (a b default dest : Str) (hd : dest ≠ []) :
    (Mentions (a ++ dest ++ b) → addDefault (doubled a ++ "{}".toList ++ doubled b) default dest = .text (a ++ dest ++ b)) ∧
    (¬ Mentions (a ++ dest ++ b) → addDefault (doubled a ++ "{}".toList ++ doubled b) default dest =
      .text (a ++ dest ++ b ++ " [".toList ++ default ++ "]".toList)) := by
  have e : doubled a ++ "{}".toList ++ doubled b = doubled a ++ '{' :: '}' :: doubled b := by simp
  have hb : format dest true (doubled b) = .text b := by
    have := format_doubled dest true b []
    rw [List.append_nil] at this
    rw [this]
    simp [format, Result.prepend]
  have hl : withLetter (doubled a ++ "{}".toList ++ doubled b) dest = .text (a ++ dest ++ b) := by
    unfold withLetter
    rw [e, if_pos (by rw [has_field]; simpa using hd), format_doubled, format_field, hb]
    simp [Result.prepend]
  unfold addDefault
  rw [hl]
  dsimp only
  unfold withDefault
  constructor
  · intro hm; rw [if_pos ((mentions_iff _).2 hm)]
  · intro hm; rw [if_neg (fun h' => hm ((mentions_iff _).1 h'))]

/-- C165: whatever the text, a help text that results tells the default value in square brackets at its end, or has the word
"default" in it. -/
theorem C165_default_told (text default dest r : Str) (h : addDefault text default dest = .text r) :
    Mentions r ∨ ∃ t, r = t ++ " [".toList ++ default ++ "]".toList := by
  unfold addDefault at h
  split at h
  · rename_i s _
    injection h with h
    unfold withDefault at h
    split_ifs at h with hm
    · left; rw [← h]; exact (mentions_iff _).1 hm
    · right; exact ⟨s, h.symm⟩
  · exact absurd h (by simp_all)

/-- C165: a text with more than one place for the letter is refused with an exception. -/
theorem C165_twice (a b c default dest : Str) (ha : Plain a) (hb : Plain b) (hd : dest ≠ []) :
    addDefault (a ++ "{}".toList ++ b ++ "{}".toList ++ c) default dest = .error := by
  have e : a ++ "{}".toList ++ b ++ "{}".toList ++ c = a ++ '{' :: '}' :: (b ++ '{' :: '}' :: c) := by simp
  have hl : withLetter (a ++ "{}".toList ++ b ++ "{}".toList ++ c) dest = .error := by
    unfold withLetter
    rw [e, if_pos (by rw [has_field]; simpa using hd), format_plain _ _ _ _ ha, format_field, format_plain _ _ _ _ hb, format_second]
    rfl
  unfold addDefault
  rw [hl]

theorem plain_seed : Plain "Seed for option ".toList := by unfold Plain; decide

example := C165_plain "Seed for option ".toList "0.8".toList "C".toList plain_seed
example := C165_letter "Seed for option ".toList [] "0.8".toList "C".toList plain_seed (by unfold Plain; simp) (by decide)
example := C165_doubled "{a} for ".toList "}".toList "0.8".toList "C".toList (by decide)
example := C165_default_told "Seed for option ".toList "0.8".toList "C".toList _
  ((C165_plain "Seed for option ".toList "0.8".toList "C".toList plain_seed).2 (by rw [← mentions_iff]; decide))
example := C165_twice "Seed for option ".toList [] "".toList "0.8".toList "C".toList plain_seed (by unfold Plain; simp) (by decide)
example : addDefault "Value of {}".toList "0.8".toList "C".toList = .text "Value of C [0.8]".toList := by decide +kernel
example : addDefault "File (Default: {{}})".toList "x".toList "f".toList = .text "File (Default: {})".toList := by decide +kernel
example : Mentions "The DEFAULT is 3".toList := (mentions_iff _).1 (by decide +kernel)

end HelpText
end Ade
