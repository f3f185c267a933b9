import Verif.Model.LggNames
import Verif.Props.LogText
import Mathlib.Data.List.Infix
import Mathlib.Data.List.TakeWhile

/-!
# C82, C83: which parameters the log grepper shows, and its table
-/

set_option autoImplicit false

namespace Ade
namespace LggNames
open LogText

/-! ## C82: selecting parameters -/

/-- What it means for a name to match the parts of a pattern: a star stands for any text, any other part
for one character. -/
inductive GlobMatch : List Tok → Str → Prop
  | nil : GlobMatch [] []
  | star (a b : Str) (ts : List Tok) : GlobMatch ts b → GlobMatch (.star :: ts) (a ++ b)
  | one (t : Tok) (ts : List Tok) (c : Char) (s : Str) :
      t ≠ .star → t.ok c = true → GlobMatch ts s → GlobMatch (t :: ts) (c :: s)

theorem globMatch_iff (ts : List Tok) (s : Str) : globMatch ts s = true ↔ GlobMatch ts s := by
  induction ts generalizing s with
  | nil =>
    simp only [globMatch, List.isEmpty_iff]
    constructor
    · rintro rfl; exact .nil
    · rintro ⟨⟩; rfl
  | cons t ts ih =>
    by_cases hs : t = .star
    · subst hs
      simp only [globMatch, List.any_eq_true, List.mem_tails]
      constructor
      · rintro ⟨b, ⟨a, rfl⟩, h⟩
        exact .star a b ts ((ih b).1 h)
      · intro h
        cases h with
        | star a b _ h => exact ⟨b, ⟨a, rfl⟩, (ih b).2 h⟩
        | one _ _ _ _ h => exact absurd rfl h
    · cases s with
      | nil =>
        constructor
        · intro h
          cases t <;> simp_all [globMatch]
        · intro h
          generalize hcs : ([] : Str) = cs at h
          cases h with
          | star => exact absurd rfl hs
          | one => cases hcs
      | cons c s =>
        have : globMatch (t :: ts) (c :: s) = (t.ok c && globMatch ts s) := by
          cases t <;> simp_all [globMatch]
        rw [this, Bool.and_eq_true, ih]
        constructor
        · rintro ⟨h1, h2⟩; exact .one t ts c s hs h1 h2
        · intro h
          generalize hcs : c :: s = cs at h
          cases h with
          | star => exact absurd rfl hs
          | one _ _ c' s' _ h1 h2 =>
            cases hcs
            exact ⟨h1, h2⟩

/-- A character without a special meaning in patterns. -/
def Ordinary (c : Char) : Prop := c ≠ '*' ∧ c ≠ '?' ∧ c ≠ '['

theorem parse_ordinary (fuel : ℕ) (c : Char) (s : Str) (h : Ordinary c) :
    parseGlob (fuel + 1) (c :: s) = .lit c :: parseGlob fuel s := by
  obtain ⟨h1, h2, h3⟩ := h
  conv_lhs => unfold parseGlob
  split <;> simp_all

theorem parse_append (p s : Str) (h : ∀ c ∈ p, Ordinary c) :
    parseGlob (p ++ s).length (p ++ s) = p.map Tok.lit ++ parseGlob s.length s := by
  induction p with
  | nil => rfl
  | cons c p ih =>
    simp only [List.cons_append, List.length_cons, List.map_cons]
    rw [parse_ordinary _ _ _ (h c (by simp)), ih fun x hx => h x (by simp [hx])]

theorem globMatch_lits (p : Str) (ts : List Tok) (s : Str) :
    globMatch (p.map Tok.lit ++ ts) s = true ↔ ∃ r, s = p ++ r ∧ globMatch ts r = true := by
  induction p generalizing s with
  | nil => simp
  | cons c p ih =>
    cases s with
    | nil => simp [globMatch]
    | cons x s =>
      simp only [List.map_cons, List.cons_append, globMatch, Tok.ok, Bool.and_eq_true, beq_iff_eq, ih,
        List.cons.injEq]
      constructor
      · rintro ⟨rfl, r, rfl, h⟩; exact ⟨r, ⟨rfl, rfl⟩, h⟩
      · rintro ⟨r, ⟨rfl, rfl⟩, h⟩; exact ⟨rfl, r, rfl, h⟩

/-- C82: a name as a pattern matches that name only. -/
theorem C82_plain (p : Str) (hp : ∀ c ∈ p, Ordinary c) (name : Str) : fnmatch p name = true ↔ name = p := by
  have := parse_append p [] hp
  simp only [List.append_nil] at this
  rw [fnmatch, this, globMatch_lits]
  simp [parseGlob, globMatch]

/-- C82: a name followed by a star matches the names starting with it. -/
theorem C82_prefix (p : Str) (hp : ∀ c ∈ p, Ordinary c) (name : Str) :
    fnmatch (p ++ ['*']) name = true ↔ p <+: name := by
  rw [fnmatch, parse_append p _ hp, globMatch_lits]
  have : ∀ r : Str, globMatch (parseGlob 1 ['*']) r = true := by
    intro r
    rw [globMatch_iff]
    have h := GlobMatch.star r [] [] .nil
    rw [List.append_nil] at h
    exact h
  constructor
  · rintro ⟨r, rfl, -⟩; exact ⟨r, rfl⟩
  · rintro ⟨r, rfl⟩; exact ⟨r, rfl, this r⟩

theorem tail_match (p q : Str) (hp : ∀ c ∈ p, Ordinary c) (t : Tok) (ht : t ≠ .star)
    (hq : parseGlob q.length q = [t]) (name : Str) :
    fnmatch (p ++ q) name = true ↔ ∃ x, name = p ++ [x] ∧ t.ok x = true := by
  rw [fnmatch, parse_append p _ hp, globMatch_lits, hq]
  have key : ∀ r, globMatch [t] r = true ↔ ∃ x, r = [x] ∧ t.ok x = true := by
    intro r
    rw [globMatch_iff]
    constructor
    · intro h
      generalize hts : [t] = ts at h
      cases h with
      | nil => cases hts
      | star => cases hts; exact absurd rfl ht
      | one t' ts c s _ h1 h2 =>
        cases hts
        cases h2
        exact ⟨c, rfl, h1⟩
    · rintro ⟨x, rfl, hx⟩
      exact .one t [] x [] ht hx .nil
  constructor
  · rintro ⟨r, rfl, h⟩
    obtain ⟨x, rfl, hx⟩ := (key r).1 h
    exact ⟨x, rfl, hx⟩
  · rintro ⟨x, rfl, hx⟩
    exact ⟨[x], rfl, (key _).2 ⟨x, rfl, hx⟩⟩

/-- C82: a question mark stands for one character. -/
theorem C82_question (p : Str) (hp : ∀ c ∈ p, Ordinary c) (name : Str) :
    fnmatch (p ++ ['?']) name = true ↔ ∃ x, name = p ++ [x] := by
  rw [tail_match p ['?'] hp .any (by simp) rfl]
  simp [Tok.ok]

/-- C82: `[a-b]` stands for one character between the two, `[!a-b]` for one that is not. -/
theorem C82_class (p : Str) (hp : ∀ c ∈ p, Ordinary c) (a b : Char) (ha : a ≠ '!' ∧ a ≠ ']') (hb : b ≠ ']')
    (name : Str) :
    (fnmatch (p ++ ['[', a, '-', b, ']']) name = true ↔ ∃ x, name = p ++ [x] ∧ (a ≤ x ∧ x ≤ b)) ∧
    (fnmatch (p ++ ['[', '!', a, '-', b, ']']) name = true ↔ ∃ x, name = p ++ [x] ∧ ¬ (a ≤ x ∧ x ≤ b)) := by
  have hbt : bracketText [a, '-', b, ']'] = some ([a, '-', b], []) := by
    have h1 : ∀ c : Char, c ≠ ']' → (c != ']') = true := fun c h => by simpa using h
    unfold bracketText
    split
    rename_i first s' h
    split at h
    · rename_i hs; cases hs; exact absurd rfl ha.2
    · cases h
      simp [h1 a ha.2, h1 b hb]
  have hci : classItems 3 [a, '-', b] = [.range a b] := rfl
  constructor
  · have : parseGlob 5 ['[', a, '-', b, ']'] = [.set false [.range a b]] := by
      show parseGlob (4 + 1) ('[' :: [a, '-', b, ']']) = _
      rw [parseGlob]
      · simp only [hbt]
        simp [hci, parseGlob]
      · intro s' h; cases h; exact ha.1 rfl
    rw [tail_match p ['[', a, '-', b, ']'] hp (.set false [.range a b]) (by simp) this]
    simp [Tok.ok, ClassItem.has]
  · have : parseGlob 6 ['[', '!', a, '-', b, ']'] = [.set true [.range a b]] := by
      unfold parseGlob
      simp only [hbt]
      simp [hci, parseGlob]
    rw [tail_match p ['[', '!', a, '-', b, ']'] hp (.set true [.range a b]) (by simp) this]
    simp only [Tok.ok, ClassItem.has, List.any_cons, List.any_nil, Bool.or_false, bne_iff_ne, ne_eq,
      Bool.not_eq_true, Bool.and_eq_false_iff, decide_eq_false_iff_not, not_and_or]

/-- C82: `[abc]` stands for one of the characters between the brackets. -/
theorem C82_set (p : Str) (hp : ∀ c ∈ p, Ordinary c) (c : Char) (cs : Str) (hc : c ≠ '!')
    (hcs : ∀ x ∈ c :: cs, x ≠ '-' ∧ x ≠ ']') (name : Str) :
    fnmatch (p ++ '[' :: c :: (cs ++ [']'])) name = true ↔ ∃ x ∈ c :: cs, name = p ++ [x] := by
  have hci : ∀ l : Str, (∀ x ∈ l, x ≠ '-') → classItems l.length l = l.map .single := by
    intro l hl
    induction l with
    | nil => rfl
    | cons a l ih =>
      have ih := ih fun x hx => hl x (by simp [hx])
      rw [List.length_cons, classItems, ih, List.map_cons]
      intro b s h
      subst h
      exact hl '-' (by simp) rfl
  have hne : ∀ x ∈ c :: cs, (x != ']') = true := fun x hx => by simpa using (hcs x hx).2
  have hdrop : ∀ l : Str, (∀ x ∈ l, (x != ']') = true) → (l ++ [']']).dropWhile (· != ']') = [']'] ∧
      (l ++ [']']).takeWhile (· != ']') = l := by
    intro l hl
    induction l with
    | nil => simp
    | cons a l ih => simpa [hl a (by simp)] using ih fun x hx => hl x (by simp [hx])
  obtain ⟨hd, ht⟩ := hdrop (c :: cs) hne
  have hbt : bracketText (c :: cs ++ [']']) = some (c :: cs, []) := by
    unfold bracketText
    split
    rename_i first s' h
    split at h
    · rename_i hs
      simp only [List.cons_append, List.cons.injEq] at hs
      exact absurd hs.1 (hcs c (by simp)).2
    · cases h
      rw [hd, ht]
      rfl
  have hpg : parseGlob ('[' :: c :: (cs ++ [']'])).length ('[' :: c :: (cs ++ [']'])) =
      [.set false ((c :: cs).map .single)] := by
    rw [List.length_cons, parseGlob]
    · simp only [show c :: (cs ++ [']']) = c :: cs ++ [']'] from rfl, hbt]
      rw [hci (c :: cs) fun x hx => (hcs x hx).1]
      simp [parseGlob]
    · intro s' h; cases h; exact hc rfl
  rw [tail_match p _ hp (.set false ((c :: cs).map .single)) (by simp) hpg]
  have : ∀ x, Tok.ok x (.set false ((c :: cs).map .single)) = true ↔ x ∈ c :: cs := by
    intro x
    simp only [Tok.ok, bne_iff_ne, ne_eq, Bool.not_eq_false, List.any_map, List.any_eq_true,
      Function.comp, ClassItem.has, beq_iff_eq]
    exact ⟨fun ⟨y, hy, e⟩ => e ▸ hy, fun h => ⟨x, h, rfl⟩⟩
  constructor
  · rintro ⟨x, rfl, hx⟩
    exact ⟨x, (this x).1 hx, rfl⟩
  · rintro ⟨x, hx, rfl⟩
    exact ⟨x, rfl, (this x).2 hx⟩

example := C82_set "R".toList (by unfold Ordinary; decide) 'a' "bc".toList (by decide) (by decide) "Rb".toList

theorem addNew_mem (names new : List Str) (x : Str) : x ∈ addNew names new ↔ x ∈ names ∨ x ∈ new := by
  unfold addNew
  induction new generalizing names with
  | nil => simp
  | cons n new ih =>
    rw [List.foldl_cons, ih]
    split_ifs with h
    · constructor
      · rintro (h' | h') <;> simp [h']
      · rintro (h' | h')
        · exact .inl h'
        · rcases List.mem_cons.1 h' with rfl | h'
          · exact .inl h
          · exact .inr h'
    · simp [or_assoc]

theorem addNew_nodup (names new : List Str) (h : names.Nodup) : (addNew names new).Nodup := by
  unfold addNew
  induction new generalizing names with
  | nil => exact h
  | cons n new ih =>
    rw [List.foldl_cons]
    apply ih
    split_ifs with hn
    · exact h
    · rw [List.nodup_append]
      exact ⟨h, by simp, by rintro a ha b hb rfl; simp at hb; exact hn (hb ▸ ha)⟩

theorem foldl_addNew_mem (found : List (List Str)) (names : List Str) (x : Str) :
    x ∈ found.foldl addNew names ↔ x ∈ names ∨ ∃ f ∈ found, x ∈ f := by
  induction found generalizing names with
  | nil => simp
  | cons f found ih => rw [List.foldl_cons, ih, addNew_mem]; simp [or_assoc]

theorem foldl_addNew_nodup (found : List (List Str)) (names : List Str) (h : names.Nodup) :
    (found.foldl addNew names).Nodup := by
  induction found generalizing names with
  | nil => exact h
  | cons f found ih => exact ih _ (addNew_nodup names f h)

theorem sorted_mem (l : List Str) (x : Str) : x ∈ sorted l ↔ x ∈ l :=
  (List.perm_insertionSort strLe l).mem_iff

theorem sorted_strict (l : List Str) (h : l.Nodup) : (sorted l).Pairwise (· < ·) := by
  have : Std.Total strLe := ⟨strLe_total⟩
  have : IsTrans Str strLe := ⟨fun _ _ _ => strLe_trans⟩
  have h1 : (sorted l).Pairwise strLe := List.pairwise_insertionSort _ l
  have h2 : (sorted l).Nodup := (List.perm_insertionSort strLe l).nodup_iff.2 h
  rw [List.nodup_iff_pairwise_ne] at h2
  exact (h1.and h2).imp fun {a b} h => lt_of_le_of_ne (not_lt.1 h.1) h.2

/-- C82: with arguments, exactly the parameters of the first entry in the log that match one of them are
shown, each once, sorted by name.  (The full statement has ranges like `x1-3` among the arguments as well;
`C82_range_selects_nothing` shows that they do not work.) -/
theorem C82_selected_partial (e : ℚ × PD) (rest : List (ℚ × PD)) (args : List Str) (h : args ≠ []) :
    ∃ names, selected (e :: rest) args = some names ∧ names.Pairwise (· < ·) ∧
      ∀ n, n ∈ names ↔ n ∈ e.2.map Item.name ∧
        ∃ a ∈ args, GlobMatch (parseGlob a.length a) n := by
  have hm : args.mapM (globNames (e :: rest)) =
      some (args.map fun a => (sorted (e.2.map Item.name)).filter (fnmatch a)) :=
    mapM_some _ _ _ fun a _ => rfl
  refine ⟨_, by rw [selected, if_neg h, hm]; rfl, sorted_strict _ (foldl_addNew_nodup _ _ List.nodup_nil), ?_⟩
  intro n
  rw [sorted_mem, foldl_addNew_mem]
  constructor
  · rintro (h | ⟨f, hf, hn⟩)
    · simp at h
    · obtain ⟨a, ha, rfl⟩ := List.mem_map.1 hf
      obtain ⟨h1, h2⟩ := List.mem_filter.1 hn
      exact ⟨(sorted_mem _ _).1 h1, a, ha, (globMatch_iff _ _).1 h2⟩
  · rintro ⟨h1, a, ha, h2⟩
    exact .inr ⟨_, List.mem_map.2 ⟨a, ha, rfl⟩,
      List.mem_filter.2 ⟨(sorted_mem _ _).2 h1, (globMatch_iff _ _).2 h2⟩⟩

/-- With arguments and a log without entries, `None` is iterated over: a `TypeError`. -/
theorem C82_no_entry (args : List Str) (h : args ≠ []) : selected [] args = none := by
  rw [selected, if_neg h]
  cases args with
  | nil => exact absurd rfl h
  | cons a args => rfl

/-- C82: without arguments the starred names of the four entries with the lowest SSEs are shown. -/
theorem C82_default (yields : List (ℚ × PD)) :
    selected yields [] = some (Lgg.starredNames 4 (yields.map starEntry)) := rfl

/-! ### Ranges -/

theorem span_dash (a b : Str) (h : '-' ∉ a) :
    (a ++ '-' :: b).takeWhile (· != '-') = a ∧ (a ++ '-' :: b).dropWhile (· != '-') = '-' :: b := by
  refine span_append (p := (· != '-')) ?_ ?_
  · intro c hc
    simp only [bne_iff_ne, ne_eq]
    rintro rfl; exact h hc
  · intro c r hcr
    cases hcr; rfl

theorem digits_all (n : ℕ) : (Nat.toDigits 10 n).all Char.isDigit = true := by
  rw [List.all_eq_true]
  intro c hc
  exact Nat.isDigit_of_mem_toDigits (by decide) (by decide) hc

theorem digits_no_dash {s : Str} (h : s.all Char.isDigit = true) : '-' ∉ s := by
  intro hm
  rw [List.all_eq_true] at h
  exact absurd (h _ hm) (by decide)

theorem numSplit_eq (acc q ds : Str) (hq : ∀ c ∈ q, isNameChar c = true)
    (hl : ∀ c, q.getLast? = some c → c.isDigit = false) (hne : ds ≠ []) (hd : ds.all Char.isDigit = true) :
    numSplit acc (q ++ ds) = some (acc ++ q, ds) := by
  induction q generalizing acc with
  | nil =>
    obtain ⟨d, ds', rfl⟩ := List.exists_cons_of_ne_nil hne
    simp only [List.nil_append, numSplit, List.append_nil]
    rw [if_pos hd]
  | cons c q ih =>
    have hnot : (c :: (q ++ ds)).all Char.isDigit = false := by
      obtain ⟨x, hx⟩ : ∃ x, (c :: q).getLast? = some x :=
        ⟨_, List.getLast?_eq_some_getLast (by simp)⟩
      have hxd := hl x hx
      rw [List.all_eq_false]
      refine ⟨x, ?_, by simp [hxd]⟩
      have := List.mem_of_getLast? hx
      rw [← List.cons_append]
      exact List.mem_append_left _ this
    simp only [List.cons_append, numSplit]
    rw [if_neg (by simp [hnot]), if_pos (hq c (by simp))]
    rw [ih (acc ++ [c]) (fun x hx => hq x (by simp [hx])) (by
      intro x hx
      apply hl
      cases q with
      | nil => simp at hx
      | cons y q => rw [List.getLast?_cons_cons]; exact hx)]
    simp

/-- C82: `RowManager` expands a range of numbers: `x1-3` gives `x1`, `x2`, `x3`.  (The text in front of the
first number must not end with a digit.) -/
theorem C82_number_range (c : Char) (q : Str) (hc : isNameChar c = true) (hq : ∀ x ∈ q, isNameChar x = true)
    (hl : ∀ x, q.getLast? = some x → x.isDigit = false) (a b : ℕ) :
    expand (c :: q ++ Nat.toDigits 10 a ++ '-' :: Nat.toDigits 10 b) =
      (List.range' a (b + 1 - a)).map fun k => c :: q ++ Nat.toDigits 10 k := by
  have hnd : '-' ∉ c :: q ++ Nat.toDigits 10 a := by
    intro h
    rcases List.mem_append.1 h with h | h
    · rcases List.mem_cons.1 h with h | h
      · rw [← h] at hc; exact absurd hc (by decide)
      · exact absurd (hq _ h) (by decide)
    · exact digits_no_dash (digits_all a) h
  obtain ⟨h1, h2⟩ := span_dash _ (Nat.toDigits 10 b) hnd
  have hb : (Nat.toDigits 10 b).isEmpty = false := by
    rw [List.isEmpty_eq_false_iff]; exact Nat.toDigits_ne_nil
  have : numRange (c :: q ++ Nat.toDigits 10 a ++ '-' :: Nat.toDigits 10 b) =
      some (c :: q, Nat.toDigits 10 a, Nat.toDigits 10 b) := by
    unfold numRange
    rw [h1, h2]
    simp only [List.cons_append, hc, hb, digits_all, Bool.not_false, Bool.and_self, if_true]
    rw [numSplit_eq [c] q _ hq hl Nat.toDigits_ne_nil (digits_all a)]
    rfl
  rw [expand, this]
  simp only [numTexts, Nat.ofDigitChars_ten_toDigits, List.map_map]
  rfl

/-- C82: a range without an end is no range. -/
theorem C82_open_range (name : Str) (h : '-' ∉ name) : expand (name ++ ['-']) = [name ++ ['-']] := by
  obtain ⟨h1, h2⟩ := span_dash name [] h
  have hn : numRange (name ++ ['-']) = none := by
    unfold numRange
    rw [h1, h2]
    cases name <;> simp
  have hl : letterRange (name ++ ['-']) = none := by
    unfold letterRange
    rw [h1, h2]
    cases name.reverse <;> rfl
  rw [expand, hn]
  simp only [hl]

example := C82_open_range "x1".toList (by decide)

/-- C82: a name without a dash is left as it is. -/
theorem C82_setup_plain (names : List Str) (h : ∀ n ∈ names, '-' ∉ n) : setupNames names = names := by
  induction names with
  | nil => rfl
  | cons n names ih =>
    have hn : n.dropWhile (· != '-') = [] := by
      rw [List.dropWhile_eq_nil_iff]
      intro x hx
      simp only [bne_iff_ne, ne_eq]
      rintro rfl
      exact h n (by simp) hx
    have : expand n = [n] := by
      have h1 : numRange n = none := by
        unfold numRange
        rw [hn]
        split
        · rename_i h; cases h
        · rfl
      have h2 : letterRange n = none := by
        unfold letterRange
        rw [hn]
        split
        · rename_i h; cases h
        · rfl
      rw [expand, h1]
      simp only [h2]
    rw [setupNames, List.flatMap_cons, this]
    have := ih fun n hn => h n (by simp [hn])
    rw [setupNames] at this
    rw [this]; rfl

theorem parse_has_dash (fuel : ℕ) (p : Str) (hf : p.length ≤ fuel) (h : '-' ∈ p) (hb : '[' ∉ p) :
    Tok.lit '-' ∈ parseGlob fuel p := by
  induction fuel generalizing p with
  | zero =>
    have : p = [] := List.length_eq_zero_iff.1 (by omega)
    subst this; simp at h
  | succ fuel ih =>
    cases p with
    | nil => simp at h
    | cons c p =>
      have hrec : '-' ∈ p → Tok.lit '-' ∈ parseGlob fuel p :=
        fun hm => ih p (by simpa using hf) hm fun h' => hb (by simp [h'])
      have hc : '-' = c ∨ '-' ∈ p := by simpa using h
      by_cases h1 : c = '*'
      · subst h1
        have : '-' ∈ p := by rcases hc with h | h; · exact absurd h (by decide)
                             · exact h
        simp [parseGlob, hrec this]
      by_cases h2 : c = '?'
      · subst h2
        have : '-' ∈ p := by rcases hc with h | h; · exact absurd h (by decide)
                             · exact h
        simp [parseGlob, hrec this]
      rw [parse_ordinary fuel c p ⟨h1, h2, fun h => hb (by simp [h])⟩]
      rcases hc with rfl | hm
      · simp
      · exact List.mem_cons_of_mem _ (hrec hm)

theorem lit_mem {ts : List Tok} {s : Str} (h : GlobMatch ts s) (c : Char) (hc : Tok.lit c ∈ ts) : c ∈ s := by
  induction h with
  | nil => simp at hc
  | star a b ts _ ih =>
    rcases List.mem_cons.1 hc with hc | hc
    · cases hc
    · exact List.mem_append_right _ (ih hc)
  | one t ts x s _ hx _ ih =>
    rcases List.mem_cons.1 hc with hc | hc
    · subst hc
      have : x = c := by simpa [Tok.ok] using hx
      simp [this]
    · exact List.mem_cons_of_mem _ (ih hc)


theorem params_names {s : Str} {i : Item} (h : i ∈ params s) : IsName i.name := by
  have hat : ∀ s i r, paramAt s = some (i, r) → IsName i.name := by
    intro s i r h
    obtain ⟨_, _, h1, _⟩ := (paramAt_iff _ _ _).1 h
    exact h1
  have hsp : ∀ s i r, spaceSearch s = some (i, r) → IsName i.name := by
    intro s
    induction s with
    | nil => intro i r h; simp [spaceSearch] at h
    | cons c s ih =>
      intro i r h
      simp only [spaceSearch] at h
      split at h
      · split at h
        · rename_i q hq
          cases h; exact hat _ _ _ hq
        · exact ih _ _ h
      · exact ih _ _ h
  have hall : ∀ fuel s, ∀ i ∈ paramsAux fuel s, IsName i.name := by
    intro fuel
    induction fuel with
    | zero => intro s i h; simp [paramsAux] at h
    | succ fuel ih =>
      intro s i h
      simp only [paramsAux] at h
      split at h
      · simp at h
      · rename_i j rest hj
        rcases List.mem_cons.1 h with rfl | h
        · unfold paramSearch at hj
          split at hj
          · rename_i q hq
            cases hj; exact hat _ _ _ hq
          · exact hsp _ _ _ hj
        · exact ih _ _ h
  exact hall _ _ _ h

theorem put_mem {pd : PD} {i j : Item} (h : i ∈ put pd j) : i ∈ pd ∨ i = j := by
  unfold put at h
  split at h
  · obtain ⟨x, hx, hxi⟩ := List.mem_map.1 h
    split at hxi
    · exact .inr hxi.symm
    · exact .inl (hxi ▸ hx)
  · simpa using h

theorem addLine_names {pd : PD} (s : Str) (h : ∀ i ∈ pd, IsName i.name) :
    ∀ i ∈ addLine pd s, IsName i.name := by
  have : ∀ (is : List Item) (pd : PD), (∀ i ∈ pd, IsName i.name) → (∀ i ∈ is, IsName i.name) →
      ∀ i ∈ is.foldl put pd, IsName i.name := by
    intro is
    induction is with
    | nil => intro pd h _; exact h
    | cons j is ih =>
      intro pd h hj
      apply ih
      · intro i hi
        rcases put_mem hi with hi | rfl
        · exact h i hi
        · exact hj i (by simp)
      · exact fun i hi => hj i (by simp [hi])
  exact this _ _ h fun i hi => params_names hi

theorem entries_names {F : Type} (float : Str → Option F) (ls : List Str) (cur : Option (F × PD))
    (hc : ∀ e, cur = some e → ∀ i ∈ e.2, IsName i.name) :
    ∀ e ∈ (entries float cur ls).yields, ∀ i ∈ e.2, IsName i.name := by
  induction ls generalizing cur with
  | nil =>
    cases cur with
    | none => simp [entries]
    | some c =>
      simp only [entries, List.mem_singleton]
      rintro e rfl
      exact hc e rfl
  | cons l ls ih =>
    cases cur with
    | none =>
      simp only [entries]
      split
      · exact ih none (by simp)
      · split
        · simp
        · apply ih
          rintro e ⟨⟩
          exact addLine_names _ (by simp)
    | some c =>
      simp only [entries]
      split
      · intro e he
        rcases List.mem_cons.1 he with rfl | he
        · exact hc _ rfl
        · exact ih none (by simp) e he
      · apply ih
        rintro e ⟨⟩
        exact addLine_names _ (hc c rfl)

theorem columns_names {F : Type} (float : Str → Option F) (rows : List (Str × List Str)) (sses : List Str) (k : ℕ) :
    ∀ e ∈ (columns float rows k sses).yields, ∀ i ∈ e.2, IsName i.name := by
  induction sses generalizing k with
  | nil => simp [columns]
  | cons s sses ih =>
    simp only [columns]
    split
    · intro e he
      rcases List.mem_cons.1 he with rfl | he
      · exact addLine_names _ (by simp)
      · exact ih _ e he
    · simp

/-- All names read from a log are of letters, digits and underscores and start with a letter. -/
theorem C82_names_read {F : Type} (float : Str → Option F) (file : List Str) :
    ∀ e ∈ (filerator float file).yields, ∀ i ∈ e.2, IsName i.name := by
  unfold filerator
  simp only
  split
  · exact entries_names float file none (by simp)
  · split
    · exact entries_names float file none (by simp)
    · intro e he
      rcases List.mem_append.1 he with he | he
      · exact entries_names float file none (by simp) e he
      · exact columns_names float _ _ _ e he

/-- The documented ranges select nothing, whatever is in the log: no parameter read from a log has a dash in
its name, so an argument with a dash matches none.  (The expansion of ranges never sees such an
argument.) -/
theorem C82_range_selects_nothing (float : Str → Option ℚ) (file args : List Str) (h : args ≠ [])
    (hne : (filerator float file).yields ≠ []) (hr : ∀ a ∈ args, '-' ∈ a ∧ '[' ∉ a) :
    selected (filerator float file).yields args = some [] := by
  obtain ⟨e, rest, hy⟩ := List.exists_cons_of_ne_nil hne
  have hn := C82_names_read float file e (by simp [hy])
  obtain ⟨names, h1, -, h2⟩ := C82_selected_partial e rest args h
  rw [hy, h1]
  congr 1
  apply List.eq_nil_iff_forall_not_mem.2
  intro n hm
  obtain ⟨hin, a, ha, hg⟩ := (h2 n).1 hm
  obtain ⟨i, hi, rfl⟩ := List.mem_map.1 hin
  have := lit_mem hg '-' (parse_has_dash _ _ le_rfl (hr a ha).1 (hr a ha).2)
  exact (name_word (hn i hi)).2.2.2 this

/-- C82: what is selected is what is shown: no selected name is changed by the expansion of ranges. -/
theorem C82_shown (float : Str → Option ℚ) (file args names : List Str) (h : args ≠ [])
    (hs : selected (filerator float file).yields args = some names) : setupNames names = names := by
  cases hy : (filerator float file).yields with
  | nil => rw [hy, C82_no_entry args h] at hs; cases hs
  | cons e rest =>
    obtain ⟨names', h1, -, h2⟩ := C82_selected_partial e rest args h
    rw [hy, h1] at hs
    cases hs
    apply C82_setup_plain
    intro n hn
    obtain ⟨i, hi, rfl⟩ := List.mem_map.1 ((h2 n).1 hn).1
    exact (name_word (C82_names_read float file e (by simp [hy]) i hi)).2.2.2

/-- C82: `RowManager` expands a range of letters. -/
theorem C82_letter_range (p : Str) (hp : p ≠ []) (hq : ∀ x ∈ p, isNameChar x = true) (c d : Char)
    (hc : c.isLower = true) (hd : d.isLower = true) :
    expand (p ++ [c, '-', d]) = (List.range' c.toNat (d.toNat + 1 - c.toNat)).map fun k => p ++ [Char.ofNat k] := by
  have hcd : c ≠ '-' := by rintro rfl; exact absurd hc (by decide)
  have hdd : d.isDigit = false := by
    have : ∀ x : Char, x.isLower = true → x.isDigit = false := by
      intro x hx
      simp only [Char.isLower, Char.isDigit, Bool.and_eq_true, decide_eq_true_eq, Bool.and_eq_false_iff,
        decide_eq_false_iff_not, UInt32.le_iff_toNat_le, ge_iff_le] at hx ⊢
      right
      intro h'
      have h1 := hx.1
      simp at h1 h'
      omega
    exact this d hd
  have hnd : '-' ∉ p ++ [c] := by
    intro h
    rcases List.mem_append.1 h with h | h
    · exact absurd (hq _ h) (by decide)
    · exact hcd (List.mem_singleton.1 h).symm
  obtain ⟨h1, h2⟩ := span_dash _ [d] hnd
  have he : p ++ [c, '-', d] = (p ++ [c]) ++ '-' :: [d] := by simp
  have hnum : numRange ((p ++ [c]) ++ '-' :: [d]) = none := by
    unfold numRange
    rw [h1, h2]
    obtain ⟨x, q, rfl⟩ := List.exists_cons_of_ne_nil hp
    simp [hdd]
  have hlet : letterRange ((p ++ [c]) ++ '-' :: [d]) = some (p, c, d) := by
    unfold letterRange
    rw [h1, h2, List.reverse_append]
    have hall : p.reverse.all isNameChar = true := by
      rw [List.all_eq_true]; intro x hx; exact hq x (List.mem_reverse.1 hx)
    simp only [List.reverse_singleton, List.singleton_append]
    rw [if_pos (by simp [hp, hc, hd]; exact hq)]
    rw [List.reverse_reverse]
  rw [he, expand, hnum]
  simp only [hlet, letterTexts, List.map_map]
  rfl

/-- C82: a range as the documentation gives it, for `RowManager` and for the script. -/
example : setupNames ["x1-3".toList, "y_c-e".toList, "Rs".toList] =
    ["x1".toList, "x2".toList, "x3".toList, "y_c".toList, "y_d".toList, "y_e".toList, "Rs".toList] := by
  decide +kernel

/-- Leading zeros are not kept: `x01-03` does not give `x01`. -/
theorem C82_leading_zeros_lost : setupNames ["x01-03".toList] = ["x1".toList, "x2".toList, "x3".toList] := by
  decide +kernel

/-- A log with one entry. -/
def exampleLog : List Str := ["<SSE=1.5 x1=3 x2=4* y=5>".toList]

/-- Reading a few numbers. -/
def exampleFloat (s : Str) : Option ℚ := if s = "1.5".toList then some (3/2) else if s = "3".toList then some 3
  else if s = "4".toList then some 4 else if s = "5".toList then some 5 else none

/-- C82: `x*` and `[xy]1` select parameters, `x1-2` selects nothing. -/
example : selected (filerator exampleFloat exampleLog).yields ["y".toList, "x*".toList, "[xy]1".toList] =
      some ["x1".toList, "x2".toList, "y".toList] ∧
    selected (filerator exampleFloat exampleLog).yields ["x1-2".toList] = some [] ∧
    selected (filerator exampleFloat exampleLog).yields [] = some ["x2".toList] ∧
    (filerator exampleFloat exampleLog).yields ≠ [] := by
  decide +kernel

/-! ## C83: the table -/

/-- What is loaded from an entry for a name: its value and the number of its stars. -/
def CellOf (float : Str → Option ℚ) (pd : PD) (name : Str) (c : ℚ × ℕ) : Prop :=
  ∃ i, get pd name = some i ∧ float i.value = some c.1 ∧ i.stars.length = c.2

theorem cell_iff (float : Str → Option ℚ) (pd : PD) (name : Str) (c : ℚ × ℕ) :
    cell float pd name = some c ↔ CellOf float pd name c := by
  unfold cell CellOf
  cases h : get pd name with
  | none => simp
  | some i =>
    simp only [Option.map_eq_some_iff, Option.some.injEq, exists_eq_left']
    constructor
    · rintro ⟨v, hv, rfl⟩; exact ⟨hv, rfl⟩
    · rintro ⟨h1, h2⟩; exact ⟨c.1, h1, by rw [h2]⟩

theorem mapM_forall₂ {α β : Type} (f : α → Option β) (l : List α) (r : List β) :
    l.mapM f = some r ↔ List.Forall₂ (fun a b => f a = some b) l r := by
  induction l generalizing r with
  | nil => simp [List.forall₂_nil_left_iff, eq_comm]
  | cons a l ih =>
    rw [List.mapM_cons]
    cases hf : f a with
    | none => simp [List.forall₂_cons_left_iff, hf]
    | some b =>
      cases hl : l.mapM f with
      | none =>
        simp only [Option.bind_eq_bind, Option.bind_some, Option.bind_none, List.forall₂_cons_left_iff, hf]
        constructor
        · intro h; cases h
        · rintro ⟨b', r', -, h, -⟩
          rw [← ih, hl] at h; cases h
      | some bs =>
        simp only [Option.bind_eq_bind, Option.bind_some, List.forall₂_cons_left_iff, hf, ← ih, hl,
          Option.pure_def, Option.some.injEq]
        constructor
        · rintro rfl; exact ⟨b, bs, rfl, rfl, rfl⟩
        · rintro ⟨b', r', rfl, rfl, rfl⟩; rfl

theorem forall₂_imp_iff {α β : Type} {R S : α → β → Prop} (h : ∀ a b, R a b ↔ S a b) (l : List α) (r : List β) :
    List.Forall₂ R l r ↔ List.Forall₂ S l r := by
  have : R = S := by funext a b; exact propext (h a b)
  rw [this]

/-- C83: the rows loaded are those of the entries in order, each with its SSE and, for every name shown, in
order, the value and the number of stars the entry has for it; and loading succeeds if all entries have
values for all names. -/
theorem C83_load (float : Str → Option ℚ) (names : List Str) (yields : List (ℚ × PD)) (rows : List TRow) :
    load float names yields = some rows ↔
      List.Forall₂ (fun e r => r.sse = e.1 ∧ r.values.length = r.stars.length ∧
        List.Forall₂ (CellOf float e.2) names (r.values.zip r.stars)) yields rows := by
  unfold load
  rw [mapM_forall₂]
  apply forall₂_imp_iff
  intro e r
  unfold loadRow
  rw [Option.map_eq_some_iff]
  constructor
  · rintro ⟨cs, hcs, rfl⟩
    rw [mapM_forall₂, forall₂_imp_iff (cell_iff float e.2)] at hcs
    refine ⟨rfl, by simp, ?_⟩
    have : (cs.map Prod.fst).zip (cs.map Prod.snd) = cs := by
      rw [List.zip_map']; simp
    simp only [this]
    exact hcs
  · rintro ⟨h1, h2, h3⟩
    refine ⟨r.values.zip r.stars, ?_, ?_⟩
    · rw [mapM_forall₂, forall₂_imp_iff (cell_iff float e.2)]; exact h3
    · rw [List.map_fst_zip (by omega), List.map_snd_zip (by omega), ← h1]

/-- An entry without one of the names ends it with a `KeyError`. -/
theorem C83_missing (float : Str → Option ℚ) (names : List Str) (yields : List (ℚ × PD)) (e : ℚ × PD)
    (he : e ∈ yields) (n : Str) (hn : n ∈ names) (hg : get e.2 n = none) : load float names yields = none := by
  cases h : load float names yields with
  | none => rfl
  | some rows =>
    exfalso
    rw [C83_load] at h
    have : ∀ (ys : List (ℚ × PD)) (rs : List TRow), List.Forall₂ (fun e r => r.sse = e.1 ∧
        r.values.length = r.stars.length ∧ List.Forall₂ (CellOf float e.2) names (r.values.zip r.stars)) ys rs →
        e ∉ ys := by
      intro ys rs hf
      induction hf with
      | nil => simp
      | cons hr _ ih =>
        rename_i a b _ _
        intro hm
        rcases List.mem_cons.1 hm with rfl | hm
        · have key : ∀ (ns : List Str) (cs : List (ℚ × ℕ)), List.Forall₂ (CellOf float e.2) ns cs → n ∉ ns := by
            intro ns cs hf
            induction hf with
            | nil => simp
            | cons hc _ ih' =>
              intro hm
              rcases List.mem_cons.1 hm with rfl | hm
              · obtain ⟨i, hi, _⟩ := hc
                rw [hg] at hi; cases hi
              · exact ih' hm
          exact key _ _ hr.2.2 hn
        · exact ih hm
    exact this _ _ h he

theorem rstripped_eq (s : Str) : rstripped s = rstrip s := rfl

theorem split_cellLine (fmt : ℚ → Str) (hf : ∀ v, IsWord (fmt v)) (v : ℚ) (k : ℕ) (hk : k ≤ 2) (t : Str) :
    split (cellLine fmt v k ++ t) = (fmt v ++ List.replicate k '*') :: split t := by
  have h1 : ∀ t, split (rj (fmt v) ++ t) = split (fmt v ++ t) := by
    intro t
    unfold rj padLeft
    induction (width - (fmt v).length) with
    | zero => rfl
    | succ k ih =>
      rw [List.replicate_succ, List.cons_append, List.cons_append, split_cons_space _ _ (by decide), ih]
  have hw : IsWord (fmt v ++ List.replicate k '*') := by
    refine ⟨by simp [(hf v).1], fun c hc => ?_⟩
    rcases List.mem_append.1 hc with hc | hc
    · exact (hf v).2 c hc
    · rw [List.eq_of_mem_replicate hc]; decide
  have h2 : ∀ j, split (fmt v ++ List.replicate k '*' ++ List.replicate (j + 1) ' ' ++ t) =
      (fmt v ++ List.replicate k '*') :: split t := by
    intro j
    have : ∀ j, split (List.replicate j ' ' ++ t) = split t := by
      intro j
      induction j with
      | zero => rfl
      | succ j ih => rw [List.replicate_succ, List.cons_append, split_cons_space _ _ (by decide), ih]
    rw [List.replicate_succ, List.append_assoc, List.cons_append, split_append _ _ ' ' (by decide),
      split_word _ hw.1 hw.2, this]
    rfl
  unfold cellLine padRight
  simp only [List.append_assoc, List.length_replicate]
  rw [h1]
  have := h2 (colSep - k - 1)
  rw [show colSep - k - 1 + 1 = colSep - k by unfold colSep; omega] at this
  rw [← this]
  simp only [List.append_assoc]

/-- C83: the words of a row of the table are the SSE and then the values with their stars, in order. -/
theorem C83_row_words (fmt : ℚ → Str) (hf : ∀ v, IsWord (fmt v)) (r : TRow)
    (hs : ∀ k ∈ r.stars, k ≤ 2) :
    split (rowLine fmt r) =
      fmt r.sse :: List.zipWith (fun v k => fmt v ++ List.replicate k '*') r.values r.stars := by
  unfold rowLine
  rw [rstripped_eq, split_rstrip]
  have hcells : ∀ (vs : List ℚ) (ks : List ℕ), (∀ k ∈ ks, k ≤ 2) →
      split (List.zipWith (cellLine fmt) vs ks).flatten =
        List.zipWith (fun v k => fmt v ++ List.replicate k '*') vs ks := by
    intro vs
    induction vs with
    | nil => intro ks _; simp [split, splitAux]
    | cons v vs ih =>
      intro ks hks
      cases ks with
      | nil => simp [split, splitAux]
      | cons k ks =>
        rw [List.zipWith_cons_cons, List.zipWith_cons_cons, List.flatten_cons,
          split_cellLine fmt hf v k (hks k (by simp)), ih ks fun k hk => hks k (by simp [hk])]
  have h0 := split_cellLine fmt hf r.sse 0 (by omega) (List.zipWith (cellLine fmt) r.values r.stars).flatten
  rw [hcells r.values r.stars hs] at h0
  simp only [List.replicate_zero, List.append_nil] at h0
  rw [← h0]
  rfl

theorem rj_length (s : Str) (h : s.length ≤ 10) : (rj s).length = 10 := by
  simp [rj, padLeft, width]; omega

theorem cellLine_length (fmt : ℚ → Str) (v : ℚ) (k : ℕ) (h : (fmt v).length ≤ 10) (hk : k ≤ 3) :
    (cellLine fmt v k).length = 13 := by
  rw [cellLine, List.length_append, rj_length _ h]
  simp [padRight, colSep]; omega

/-- The text in a column of a line: ten characters, thirteen further right for each column. -/
def column (line : Str) (k : ℕ) : Str := (line.drop (13 * k)).take 10

theorem column_flatten (parts : List Str) (h : ∀ p ∈ parts, p.length = 13) (k : ℕ) (p : Str)
    (hp : parts[k]? = some p) (t : Str) : column (parts.flatten ++ t) k = p.take 10 := by
  induction parts generalizing k with
  | nil => simp at hp
  | cons q parts ih =>
    have hq := h q (by simp)
    cases k with
    | zero =>
      simp only [List.getElem?_cons_zero, Option.some.injEq] at hp
      subst hp
      simp only [column, Nat.mul_zero, List.drop_zero, List.flatten_cons, List.append_assoc]
      rw [List.take_append_of_le_length (by omega)]
    | succ k =>
      rw [List.getElem?_cons_succ] at hp
      have := ih (fun p hp => h p (by simp [hp])) k hp
      rw [← this]
      unfold column
      rw [List.flatten_cons, List.append_assoc, show 13 * (k + 1) = q.length + 13 * k by omega,
        List.drop_append]
      simp only [Nat.add_sub_cancel_left]
      rw [List.drop_eq_nil_of_le (by omega), List.nil_append]

theorem column_append (line t : Str) (k : ℕ) (h : 13 * k + 10 ≤ line.length) :
    column (line ++ t) k = column line k := by
  unfold column
  rw [List.drop_append_of_le_length (by omega), List.take_append_of_le_length (by rw [List.length_drop]; omega)]

theorem heading_length (names : List Str) (hn : ∀ n ∈ names, n.length ≤ 10) :
    (heading names).length = 10 + 13 * names.length := by
  have : ∀ (a : Str) (ns : List Str), a.length = 10 → (∀ n ∈ ns, n.length = 10) →
      (join (List.replicate colSep ' ') (a :: ns)).length = 10 + 13 * ns.length := by
    intro a ns
    induction ns generalizing a with
    | nil => intro ha _; simp [join, ha]
    | cons b ns ih =>
      intro ha hns
      have := ih b (hns b (by simp)) fun n hn => hns n (by simp [hn])
      rw [join, List.length_append, List.length_append, this, ha, List.length_replicate, List.length_cons,
        show colSep = 3 from rfl]
      omega
  unfold heading
  rw [this _ _ (rj_length _ (by simp)) (by
    intro n hm
    obtain ⟨x, hx, rfl⟩ := List.mem_map.1 hm
    exact rj_length _ (hn x hx)), List.length_map]

theorem heading_flatten (names : List Str) :
    heading names ++ List.replicate colSep ' ' =
      ((['S', 'S', 'E'] :: names).map fun n => rj n ++ List.replicate colSep ' ').flatten := by
  have : ∀ (a : Str) (ns : List Str), join (List.replicate colSep ' ') (rj a :: ns.map rj) ++ List.replicate colSep ' ' =
      ((a :: ns).map fun n => rj n ++ List.replicate colSep ' ').flatten := by
    intro a ns
    induction ns generalizing a with
    | nil => simp [join]
    | cons b ns ih =>
      rw [List.map_cons, List.map_cons, List.flatten_cons, ← ih b]
      simp [join]
  exact this _ _

/-- C83: the columns are aligned: if names and texts of values are at most ten characters and there are at
most three stars, then every column of the heading and of each row (filled up with white space) holds the
right-justified name or value. -/
theorem C83_aligned (fmt : ℚ → Str) (names : List Str) (hn : ∀ n ∈ names, n.length ≤ 10) (r : TRow)
    (hf : (fmt r.sse).length ≤ 10 ∧ ∀ v ∈ r.values, (fmt v).length ≤ 10) (hs : ∀ k ∈ r.stars, k ≤ 3) :
    column (heading names) 0 = List.replicate 7 ' ' ++ ['S', 'S', 'E'] ∧
    (∀ k n, names[k]? = some n → column (heading names) (k + 1) = List.replicate (10 - n.length) ' ' ++ n) ∧
    ∃ t : Str, (∀ c ∈ t, isSpace c = true) ∧
      column (rowLine fmt r ++ t) 0 = List.replicate (10 - (fmt r.sse).length) ' ' ++ fmt r.sse ∧
      ∀ k v s, r.values[k]? = some v → r.stars[k]? = some s →
        column (rowLine fmt r ++ t) (k + 1) = List.replicate (10 - (fmt v).length) ' ' ++ fmt v := by
  have hlen := heading_length names hn
  have hcol : ∀ k n, (['S', 'S', 'E'] :: names)[k]? = some n → n.length ≤ 10 →
      column (heading names) k = List.replicate (10 - n.length) ' ' ++ n := by
    intro k n hk hnl
    have hkl : k ≤ names.length := by
      have := (List.getElem?_eq_some_iff.1 hk).1
      simpa [Nat.lt_succ_iff] using this
    rw [← column_append _ (List.replicate colSep ' ') k (by omega), heading_flatten]
    have := column_flatten ((['S', 'S', 'E'] :: names).map fun n => rj n ++ List.replicate colSep ' ') (by
      intro p hp
      obtain ⟨x, hx, rfl⟩ := List.mem_map.1 hp
      have hx10 : x.length ≤ 10 := by
        rcases List.mem_cons.1 hx with rfl | hx
        · simp
        · exact hn x hx
      rw [List.length_append, rj_length x hx10]; rfl) k (rj n ++ List.replicate colSep ' ') (by
      rw [List.getElem?_map, hk]; rfl) []
    rw [List.append_nil] at this
    rw [this, List.take_append_of_le_length (by rw [rj_length n hnl]), List.take_of_length_le (by rw [rj_length n hnl])]
    rfl
  refine ⟨hcol 0 _ rfl (by simp), ?_, ?_⟩
  · intro k n hk
    exact hcol (k + 1) n (by simpa using hk) (hn n (List.mem_of_getElem? hk))
  · obtain ⟨t, ht, hsp⟩ := rstrip_append (rj (fmt r.sse) ++ List.replicate colSep ' ' ++
      (List.zipWith (cellLine fmt) r.values r.stars).flatten)
    have hline : rowLine fmt r ++ t = (cellLine fmt r.sse 0 :: List.zipWith (cellLine fmt) r.values r.stars).flatten := by
      rw [rowLine, rstripped_eq, ← ht]
      simp [cellLine, padRight]
    have h13 : ∀ p ∈ cellLine fmt r.sse 0 :: List.zipWith (cellLine fmt) r.values r.stars, p.length = 13 := by
      intro p hp
      rcases List.mem_cons.1 hp with rfl | hp
      · exact cellLine_length fmt _ 0 hf.1 (by omega)
      · obtain ⟨k, hk⟩ := List.mem_iff_getElem?.1 hp
        rw [List.getElem?_zipWith_eq_some] at hk
        obtain ⟨v, s, hv, hks, rfl⟩ := hk
        exact cellLine_length fmt v s (hf.2 v (List.mem_of_getElem? hv)) (hs s (List.mem_of_getElem? hks))
    have hval : ∀ v s, (fmt v).length ≤ 10 →
        (cellLine fmt v s).take 10 = List.replicate (10 - (fmt v).length) ' ' ++ fmt v := by
      intro v s hv
      rw [cellLine, List.take_append_of_le_length (by rw [rj_length _ hv]), List.take_of_length_le (by rw [rj_length _ hv])]
      rfl
    refine ⟨t, hsp, ?_, ?_⟩
    · have := column_flatten _ h13 0 _ rfl []
      rw [List.append_nil] at this
      rw [hline, this, hval _ _ hf.1]
    · intro k v s hv hks
      have := column_flatten _ h13 (k + 1) (cellLine fmt v s) (by
        rw [List.getElem?_cons_succ, List.getElem?_zipWith_eq_some]
        exact ⟨v, s, hv, hks, rfl⟩) []
      rw [List.append_nil] at this
      rw [hline, this, hval _ _ (hf.2 v (List.mem_of_getElem? hv))]

/-- C83: the words of the heading are `SSE` and the names; those of the lines below the dashes are, row by row,
the SSE and the values with their stars. -/
theorem C83_table (fmt : ℚ → Str) (hf : ∀ v, IsWord (fmt v)) (names : List Str) (hn : ∀ n ∈ names, IsWord n)
    (rows : List TRow) (hs : ∀ r ∈ rows, ∀ k ∈ r.stars, k ≤ 2) :
    ∃ dashes : Str, (∀ c ∈ dashes, c = '-') ∧ dashes.length = (heading names).length + 2 ∧
      makeLines fmt names rows = [[], heading names, dashes] ++ rows.map (rowLine fmt) ++ [[]] ∧
      split (heading names) = ['S', 'S', 'E'] :: names ∧
      (rows.map (rowLine fmt)).map split = rows.map fun r =>
        fmt r.sse :: List.zipWith (fun v k => fmt v ++ List.replicate k '*') r.values r.stars := by
  refine ⟨_, fun c hc => List.eq_of_mem_replicate hc, by simp, rfl, ?_, ?_⟩
  · have hw : ∀ a : Str, IsWord a → ∀ t, split (rj a ++ ' ' :: t) = a :: split t := by
      intro a ha t
      rw [split_append _ _ ' ' (by decide), rj, split_padLeft, split_word a ha.1 ha.2]
      rfl
    have key : ∀ (a : Str) (ns : List Str), IsWord a → (∀ n ∈ ns, IsWord n) →
        split (join (List.replicate colSep ' ') (rj a :: ns.map rj)) = a :: ns := by
      intro a ns
      induction ns generalizing a with
      | nil =>
        intro ha _
        simp only [List.map_nil, join, rj, split_padLeft]
        exact split_word a ha.1 ha.2
      | cons b ns ih =>
        intro ha hns
        have := ih b (hns b (by simp)) fun n hn => hns n (by simp [hn])
        rw [List.map_cons, join, List.append_assoc]
        rw [show List.replicate colSep ' ' ++ join (List.replicate colSep ' ') (rj b :: ns.map rj) =
          ' ' :: ' ' :: ' ' :: join (List.replicate colSep ' ') (rj b :: ns.map rj) from rfl]
        rw [hw a ha, split_cons_space _ _ (by decide), split_cons_space _ _ (by decide), this]
    exact key _ _ ⟨by simp, by decide⟩ hn
  · rw [List.map_map]
    exact List.map_congr_left fun r hr => C83_row_words fmt hf r (hs r hr)

/-- A text for a few numbers. -/
def exampleFmt (v : ℚ) : Str := if v < 0 then "-1.2346e-05".toList else if v < 2 then "1.5".toList else "4".toList

/-- C83: a table. -/
example : makeLines exampleFmt ["x1".toList, "Amplitude".toList] [⟨3/2, [4, 3/2], [1, 2]⟩, ⟨4, [3/2, 4], [0, 0]⟩] =
    ["".toList, "       SSE           x1    Amplitude".toList, "--------------------------------------".toList,
     "       1.5            4*         1.5**".toList, "         4          1.5            4".toList, "".toList] := by
  decide +kernel

/-- A value that takes more than ten characters, like `-1.2346e-05`, moves the rest of its row to the right. -/
theorem C83_long_values_misalign :
    makeLines exampleFmt ["x1".toList, "x2".toList] [⟨4, [-1/100000, 4], [0, 0]⟩] =
    ["".toList, "       SSE           x1           x2".toList, "--------------------------------------".toList,
     "         4   -1.2346e-05            4".toList, "".toList] := by
  decide +kernel

/-- C83: the hypotheses of `C83_load`, `C83_row_words` and `C83_aligned` hold for a log. -/
example : load exampleFloat ["x2".toList, "y".toList] (filerator exampleFloat exampleLog).yields =
      some [⟨3/2, [4, 5], [1, 0]⟩] ∧
    split (rowLine exampleFmt ⟨3/2, [4, 5], [1, 0]⟩) = ["1.5".toList, "4*".toList, "4".toList] ∧
    load exampleFloat ["z".toList] (filerator exampleFloat exampleLog).yields = none := by
  decide +kernel

theorem ordinary_x : ∀ c ∈ "x_1".toList, Ordinary c := by unfold Ordinary; decide +kernel

example := C82_plain "x_1".toList ordinary_x "x_1".toList

example := C82_prefix "x_1".toList ordinary_x "x_12".toList

example := C82_question "x_1".toList ordinary_x "x_12".toList

example := C82_class "x_1".toList ordinary_x '2' '5' (by decide) (by decide) "x_12".toList

example := C82_selected_partial (3 / 2, [⟨"x".toList, "3".toList, []⟩]) [] ["x*".toList] (by decide)

example := C82_no_entry ["x*".toList] (by decide)

example := C82_number_range 'x' "_".toList (by decide) (by decide +kernel) (by decide +kernel) 8 12

example := C82_setup_plain ["x".toList, "y".toList] (by decide +kernel)

example := C82_names_read exampleFloat exampleLog (3 / 2, [⟨"x1".toList, "3".toList, []⟩,
  ⟨"x2".toList, "4".toList, ['*']⟩, ⟨"y".toList, "5".toList, []⟩]) (by decide +kernel)

example := C82_range_selects_nothing exampleFloat exampleLog ["x1-2".toList] (by decide) (by decide +kernel)
  (by decide +kernel)

example := C82_shown exampleFloat exampleLog ["x*".toList] ["x1".toList, "x2".toList] (by decide) (by decide +kernel)

example := C83_missing exampleFloat ["x1".toList, "z".toList] [(3 / 2, [⟨"x1".toList, "3".toList, []⟩])] _ (.head _)
  "z".toList (by decide +kernel) (by decide +kernel)

theorem exampleFmt_word (v : ℚ) : IsWord (exampleFmt v) := by
  unfold exampleFmt IsWord
  split
  · decide +kernel
  · split <;> decide +kernel

example := C83_row_words exampleFmt exampleFmt_word ⟨3 / 2, [4, 3 / 2], [1, 2]⟩ (by decide)

example := C83_aligned exampleFmt ["x1".toList, "Amplitude".toList] (by decide +kernel) ⟨3 / 2, [4, 3 / 2], [1, 2]⟩
  (by decide +kernel) (by decide)

end LggNames
end Ade
