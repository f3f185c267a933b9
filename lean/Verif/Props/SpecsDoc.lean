import Verif.Props.Specs
import Verif.Props.SpecsValues
import Mathlib.Data.List.Induction

/-!
# Whole specs documents (C63), and reading any text (C52)
-/

set_option autoImplicit false

namespace Ade
namespace Specs

/-! ### Specification: well-formed documents -/

/-- White space, by its code: tab to carriage return, the four separators, space. -/
def White (c : Char) : Prop := 9 ≤ c.toNat ∧ c.toNat ≤ 13 ∨ 28 ≤ c.toNat ∧ c.toNat ≤ 32

instance (c : Char) : Decidable (White c) := by unfold White; infer_instance

/-- A text of white space only. -/
def Blank (s : Str) : Prop := ∀ c ∈ s, White c

/-- A non-empty text without white space. -/
def Solid (s : Str) : Prop := s ≠ [] ∧ ∀ c ∈ s, ¬ White c

/-- A line of words: white space, the first word, further words preceded by white space, white space. -/
def lineText (lead w : Str) (rest : List (Str × Str)) (trail : Str) : Str :=
  lead ++ (w ++ rest.flatMap fun p => p.1 ++ p.2) ++ trail

/-- The line consists of the given words. -/
def HasWords (line : Str) (w : Str) (ws : List Str) : Prop :=
  ∃ (lead : Str) (rest : List (Str × Str)) (trail : Str), line = lineText lead w rest trail ∧
    Blank lead ∧ Blank trail ∧ Solid w ∧ ws = rest.map Prod.snd ∧
    ∀ p ∈ rest, p.1 ≠ [] ∧ Blank p.1 ∧ Solid p.2

/-- A blank or comment line. -/
def IsSkip (line : Str) : Prop :=
  Blank line ∨ ∃ lead s : Str, Blank lead ∧ line = lead ++ '#' :: s

/-- A line of hyphens. -/
def IsRule (line : Str) : Prop := ∃ lead s : Str, Blank lead ∧ line = lead ++ '-' :: '-' :: s

/-- The text of one key: an integer written with digits, or a name that is not all digits. -/
inductive KeyText : Key → Str → Prop where
  | int (ds : List (Fin 10)) : ds ≠ [] → KeyText (.int (natOf ds)) (ds.map digitChar)
  | name (s : Str) : (∃ c ∈ s, ∀ d, c ≠ digitChar d) →
      (∀ c ∈ s, c ≠ ':' ∧ c ≠ '\'' ∧ ¬ White c) → KeyText (.name s) s

/-- The word that starts a line and names a path: the texts of the keys, separated by colons, with quotes
put in anywhere; it must not look like a comment or a line of hyphens. -/
def PathText (path : List Key) (w : Str) : Prop :=
  (∃ texts : List Str, List.Forall₂ KeyText path texts ∧ texts ≠ [] ∧
    w.filter (· ≠ '\'') = [':'].intercalate texts) ∧
  w.head? ≠ some '#' ∧ ¬ ['-', '-'] <+: w

/-- A word that is neither a number nor none, true or false. -/
def Word (t : Str) : Prop :=
  t.head? ≠ some '#' ∧ t.getLast? ≠ some ',' ∧ t ≠ [] ∧ lower t ≠ "none".toList ∧
  lower t ≠ "true".toList ∧ lower t ≠ "false".toList ∧ ∀ n : Numeral, n.Ok → lower t ≠ n.text

/-- The text `t` stands for the value `v`. -/
def Denotes (v : Scalar) (t : Str) : Prop := Writes v t ∨ (Word t ∧ v = .str (lower t))

/-- The words after the name: an optional equals sign, values followed by commas, and possibly a
comment. -/
def ValueWords (vs : List Scalar) (ws : List Str) : Prop :=
  ∃ (eq : Bool) (xs : List (Scalar × Str × ℕ)) (comment : List Str),
    ws = (if eq then [['=']] else []) ++ (xs.map (fun x => x.2.1 ++ List.replicate x.2.2 ',') ++ comment) ∧
    (∀ x ∈ xs, Denotes x.1 x.2.1) ∧ vs = xs.map Prod.fst ∧ xs ≠ [] ∧
    (∀ c, comment.head? = some c → c.head? = some '#') ∧
    (eq = false → (xs.map (fun x => x.2.1 ++ List.replicate x.2.2 ',')).head? ≠ some ['='])

/-- A line with a path of keys and values. -/
def IsEntry (path : List Key) (vs : List Scalar) (line : Str) : Prop :=
  ∃ w ws, HasWords line w ws ∧ PathText path w ∧ ValueWords vs ws

/-- A line with just a name. -/
def IsName (k : Key) (line : Str) : Prop := ∃ w, HasWords line w [] ∧ PathText [k] w

/-- The lines between two lines of hyphens. -/
inductive Body : List Str → List (List Key × Tree) → Prop where
  | nil : Body [] []
  | skip (l : Str) (ls : List Str) (es : List (List Key × Tree)) :
      IsSkip l → Body ls es → Body (l :: ls) es
  | entry (l : Str) (ls : List Str) (es : List (List Key × Tree)) (p : List Key)
      (vs : List Scalar) : IsEntry p vs l → Body ls es → Body (l :: ls) ((p, meaning vs) :: es)

/-- What an attribute is defined as: a value, or the entries of a dict. -/
inductive Content where
  | value (t : Tree)
  | block (es : List (List Key × Tree))

/-- `Doc lines d` says that the lines define the attributes `d`, in this order. In the entries of a dict,
no path is a proper beginning of another one. -/
inductive Doc : List Str → List (Str × Content) → Prop where
  | nil : Doc [] []
  | skip (l : Str) (ls : List Str) (d : List (Str × Content)) :
      IsSkip l → Doc ls d → Doc (l :: ls) d
  | attr (l : Str) (ls : List Str) (d : List (Str × Content)) (n : Str) (vs : List Scalar) :
      IsEntry [.name n] vs l → Doc ls d → Doc (l :: ls) ((n, .value (meaning vs)) :: d)
  | block (l : Str) (skips : List Str) (r1 : Str) (body : List Str) (r2 : Str) (ls : List Str)
      (d : List (Str × Content)) (n : Str) (es : List (List Key × Tree)) :
      IsName (.name n) l → (∀ s ∈ skips, IsSkip s) → IsRule r1 → Body body es →
      (∀ p ∈ es, ∀ q ∈ es, p.1 <+: q.1 → p.1 = q.1) → IsRule r2 → Doc ls d →
      Doc (l :: (skips ++ r1 :: (body ++ r2 :: ls))) ((n, .block es) :: d)

/-! ### Words of a line -/

theorem char_eq_of_toNat {c d : Char} (h : c.toNat = d.toNat) : c = d := by
  apply Char.ext; apply UInt32.toNat_inj.1; exact h

theorem white_iff (c : Char) : White c ↔ isSpace c = true := by
  constructor
  · intro h
    have : c.toNat = (' ').toNat ∨ c.toNat = ('\t').toNat ∨ c.toNat = ('\n').toNat ∨ c.toNat = ('\r').toNat ∨
        c.toNat = ('\x0b').toNat ∨ c.toNat = ('\x0c').toNat ∨ c.toNat = ('\x1c').toNat ∨ c.toNat = ('\x1d').toNat ∨
        c.toNat = ('\x1e').toNat ∨ c.toNat = ('\x1f').toNat := by
      unfold White at h
      have e1 : (' ').toNat = 32 := rfl
      have e2 : ('\t').toNat = 9 := rfl
      have e3 : ('\n').toNat = 10 := rfl
      have e4 : ('\r').toNat = 13 := rfl
      have e5 : ('\x0b').toNat = 11 := rfl
      have e6 : ('\x0c').toNat = 12 := rfl
      have e7 : ('\x1c').toNat = 28 := rfl
      have e8 : ('\x1d').toNat = 29 := rfl
      have e9 : ('\x1e').toNat = 30 := rfl
      have e10 : ('\x1f').toNat = 31 := rfl
      omega
    rcases this with h | h | h | h | h | h | h | h | h | h <;> rw [char_eq_of_toNat h] <;> decide
  · intro h
    simp only [isSpace, Bool.or_eq_true, decide_eq_true_eq] at h
    rcases h with ((((((((h | h) | h) | h) | h) | h) | h) | h) | h) | h <;> subst h <;> decide

theorem not_white_iff (c : Char) : ¬ White c ↔ isSpace c = false := by rw [white_iff]; simp

theorem blank_iff (s : Str) : Blank s ↔ ∀ c ∈ s, isSpace c = true := by simp only [Blank, white_iff]

theorem solid_iff (s : Str) : Solid s ↔ s ≠ [] ∧ ∀ c ∈ s, isSpace c = false := by
  simp only [Solid, not_white_iff]

theorem isDigit_false {c : Char} (h : ∀ d, c ≠ digitChar d) : isDigit c = false := by
  by_contra hc
  have hc : isDigit c = true := by simpa using hc
  obtain ⟨d, hd⟩ := isDigit_iff c hc
  exact h d hd

theorem dropWhile_blank (s t : Str) (h : Blank s) (ht : ∀ c, t.head? = some c → isSpace c = false) :
    (s ++ t).dropWhile isSpace = t := by
  induction s with
  | nil =>
    cases t with
    | nil => rfl
    | cons c t => simp [ht c rfl]
  | cons c s ih =>
    rw [List.cons_append, List.dropWhile_cons, if_pos ((white_iff c).1 (h c List.mem_cons_self))]
    exact ih fun x hx => h x (List.mem_cons_of_mem _ hx)

theorem strip_core (lead core trail : Str) (h1 : Blank lead) (h2 : Blank trail)
    (hh : ∀ c, core.head? = some c → isSpace c = false)
    (hl : ∀ c, core.getLast? = some c → isSpace c = false) (hne : core ≠ []) :
    strip (lead ++ core ++ trail) = core := by
  unfold strip
  rw [List.append_assoc, dropWhile_blank lead (core ++ trail) h1 (by
    intro c hc
    cases core with
    | nil => exact absurd rfl hne
    | cons x core => exact hh c (by simpa using hc)), List.reverse_append, dropWhile_blank _ _
    (fun c hc => h2 c (List.mem_reverse.mp hc)) (by
      intro c hc
      rw [← List.getLast?_eq_head?_reverse] at hc
      exact hl c hc), List.reverse_reverse]

theorem strip_blank (s : Str) (h : Blank s) : strip s = [] := by
  unfold strip
  have := dropWhile_blank s [] h (by simp)
  rw [List.append_nil] at this
  rw [this]
  rfl

theorem strip_lead (lead s : Str) (c : Char) (h : Blank lead) (hc : isSpace c = false) :
    ∃ s', strip (lead ++ c :: s) = c :: s' ∧ (∀ c', s.head? = some c' → isSpace c' = false →
      s'.head? = some c') := by
  unfold strip
  rw [dropWhile_blank lead (c :: s) h (by simpa using hc)]
  have key : ∀ (t : Str) (x : Char), isSpace x = false →
      ∃ t', ((t ++ [x]).dropWhile isSpace) = t' ++ [x] ∧ ∀ (y : Str) (z : Char), t = y ++ [z] →
        isSpace z = false → ∃ y', t' = y' ++ [z] := by
    intro t
    induction t with
    | nil => intro x hx; exact ⟨[], by simp [hx], by simp⟩
    | cons a t ih =>
      intro x hx
      obtain ⟨t', h1, h2⟩ := ih x hx
      rw [List.cons_append, List.dropWhile_cons]
      split_ifs with ha
      · refine ⟨t', h1, fun y z hy hz => ?_⟩
        cases y with
        | nil =>
          simp only [List.nil_append, List.cons.injEq] at hy
          rw [hy.1, hz] at ha
          exact absurd ha (by simp)
        | cons b y =>
          simp only [List.cons_append, List.cons.injEq] at hy
          exact h2 y z hy.2 hz
      · exact ⟨a :: t, rfl, fun y z hy _ => ⟨y, hy⟩⟩
  obtain ⟨t', h1, h2⟩ := key s.reverse c hc
  refine ⟨t'.reverse, ?_, ?_⟩
  · rw [List.reverse_cons, h1]; simp
  · intro c' hc' hs
    cases s with
    | nil => simp at hc'
    | cons x s =>
      simp only [List.head?_cons, Option.some.injEq] at hc'
      subst hc'
      obtain ⟨y', hy'⟩ := h2 s.reverse x (by simp) hs
      rw [hy']
      simp

theorem splitAux_solid (w : Str) (acc s : Str) (h : ∀ c ∈ w, isSpace c = false) :
    splitAux acc (w ++ s) = splitAux (acc ++ w) s := by
  induction w generalizing acc with
  | nil => simp
  | cons c w ih =>
    rw [List.cons_append]
    simp only [splitAux, h c List.mem_cons_self, Bool.false_eq_true, if_false]
    rw [ih _ fun x hx => h x (List.mem_cons_of_mem _ hx)]
    simp

theorem splitAux_gap0 (g s : Str) (h : Blank g) : splitAux [] (g ++ s) = splitAux [] s := by
  induction g with
  | nil => rfl
  | cons c g ih =>
    rw [List.cons_append]
    simp only [splitAux, (white_iff c).1 (h c List.mem_cons_self), if_true]
    exact ih fun x hx => h x (List.mem_cons_of_mem _ hx)

theorem splitAux_gap (acc g s : Str) (ha : acc ≠ []) (hg : g ≠ []) (h : Blank g) :
    splitAux acc (g ++ s) = acc :: splitAux [] s := by
  cases g with
  | nil => exact absurd rfl hg
  | cons c g =>
    rw [List.cons_append]
    simp only [splitAux, (white_iff c).1 (h c List.mem_cons_self), if_true, ha, if_false]
    rw [splitAux_gap0 g s fun x hx => h x (List.mem_cons_of_mem _ hx)]

theorem split_words (w : Str) (rest : List (Str × Str)) (hw : Solid w)
    (h : ∀ p ∈ rest, p.1 ≠ [] ∧ Blank p.1 ∧ Solid p.2) :
    split (w ++ rest.flatMap fun p => p.1 ++ p.2) = w :: rest.map Prod.snd := by
  unfold split
  rw [splitAux_solid w [] _ ((solid_iff w).1 hw).2, List.nil_append]
  induction rest generalizing w with
  | nil => simp [splitAux, hw.1]
  | cons p rest ih =>
    obtain ⟨h1, h2, h3⟩ := h p List.mem_cons_self
    rw [List.flatMap_cons, List.append_assoc, splitAux_gap w p.1 _ hw.1 h1 h2,
      splitAux_solid p.2 [] _ ((solid_iff p.2).1 h3).2, List.nil_append, List.map_cons,
      ih p.2 h3 fun q hq => h q (List.mem_cons_of_mem _ hq)]

theorem solid_head (w : Str) (h : Solid w) : ∃ c s, w = c :: s ∧ isSpace c = false := by
  obtain ⟨h1, h2⟩ := (solid_iff w).1 h
  cases w with
  | nil => exact absurd rfl h1
  | cons c s => exact ⟨c, s, rfl, h2 c List.mem_cons_self⟩

theorem solid_last (w : Str) (h : Solid w) : ∃ c, w.getLast? = some c ∧ isSpace c = false := by
  obtain ⟨h1, h2⟩ := (solid_iff w).1 h
  exact ⟨w.getLast h1, List.getLast?_eq_some_getLast h1, h2 _ (List.getLast_mem h1)⟩

theorem core_last (w : Str) (rest : List (Str × Str)) (hw : Solid w)
    (h : ∀ p ∈ rest, p.1 ≠ [] ∧ Blank p.1 ∧ Solid p.2) :
    ∃ c, (w ++ rest.flatMap fun p => p.1 ++ p.2).getLast? = some c ∧ isSpace c = false := by
  induction rest using List.reverseRecOn with
  | nil => simpa using solid_last w hw
  | append_singleton rest p _ =>
    obtain ⟨c, hc, hs⟩ := solid_last p.2 (h p (by simp)).2.2
    refine ⟨c, ?_, hs⟩
    rw [List.flatMap_append]
    simp [List.getLast?_append, hc]

/-- Reading a line of words. -/
theorem readLine_words (st : St) (line w : Str) (ws : List Str) (h : HasWords line w ws)
    (h1 : w.head? ≠ some '#') (h2 : ¬ ['-', '-'] <+: w) :
    readLine st line = entry st w ws := by
  obtain ⟨lead, rest, trail, rfl, hl, ht, hw, rfl, hr⟩ := h
  obtain ⟨c, s, rfl, hc⟩ := solid_head w hw
  have hstrip : strip (lineText lead (c :: s) rest trail) =
      (c :: s) ++ rest.flatMap fun p => p.1 ++ p.2 := by
    unfold lineText
    refine strip_core lead _ trail hl ht (by simpa using hc) ?_ (by simp)
    obtain ⟨x, hx, hx'⟩ := core_last (c :: s) rest hw hr
    intro y hy
    rw [hx] at hy
    simp only [Option.some.injEq] at hy
    rw [← hy]; exact hx'
  have hsplit := split_words (c :: s) rest hw hr
  have hnd : ¬ ['-', '-'] <+: (c :: s) ++ rest.flatMap fun p => p.1 ++ p.2 := by
    intro hp
    obtain ⟨y, hy⟩ := hp
    simp only [List.cons_append, List.nil_append, List.cons.injEq] at hy
    cases s with
    | nil =>
      cases rest with
      | nil => simp at hy
      | cons p rest =>
        obtain ⟨g1, g2, _⟩ := hr p List.mem_cons_self
        cases hg : p.1 with
        | nil => exact absurd hg g1
        | cons x g =>
          rw [List.nil_append, List.flatMap_cons, hg] at hy
          simp only [List.cons_append, List.cons.injEq] at hy
          have := g2 x (by rw [hg]; exact List.mem_cons_self)
          rw [← hy.2.1] at this
          revert this; decide
    | cons x s =>
      simp only [List.cons_append, List.cons.injEq] at hy
      exact h2 ⟨s, by rw [← hy.1, ← hy.2.1]; rfl⟩
  unfold readLine
  rw [hstrip]
  simp only
  split
  · rename_i h; simp at h
  · rename_i h
    simp only [List.cons_append, List.cons.injEq] at h
    exact absurd (by rw [h.1]; rfl) h1
  · rename_i y h
    exact absurd ⟨y, h.symm⟩ hnd
  · rw [hsplit]

theorem readLine_skip (st : St) (line : Str) (h : IsSkip line) : readLine st line = .ok st := by
  unfold readLine
  rcases h with h | ⟨lead, s, h, rfl⟩
  · rw [strip_blank line h]
  · obtain ⟨s', hs, -⟩ := strip_lead lead s '#' h (by decide)
    rw [hs]
    rfl

theorem readLine_rule (st : St) (line : Str) (h : IsRule line) : readLine st line = hyphens st := by
  obtain ⟨lead, s, h, rfl⟩ := h
  obtain ⟨s', hs, hs'⟩ := strip_lead lead ('-' :: s) '-' h (by decide)
  have := hs' '-' rfl (by decide)
  unfold readLine
  rw [hs]
  cases s' with
  | nil => simp at this
  | cons c s' =>
    simp only [List.head?_cons, Option.some.injEq] at this
    rw [this]
    rfl

/-! ### Names -/

theorem splitColon_intercalate (texts : List Str) (hne : texts ≠ [])
    (h : ∀ t ∈ texts, ∀ c ∈ t, c ≠ ':') : splitColon ([':'].intercalate texts) = texts := by
  have h0 : ∀ (t acc : Str) (s : Str), (∀ c ∈ t, c ≠ ':') →
      splitColonAux acc (t ++ s) = splitColonAux (acc ++ t) s := by
    intro t
    induction t with
    | nil => intro acc s _; simp
    | cons c t ih =>
      intro acc s ht
      rw [List.cons_append]
      simp only [splitColonAux, ht c List.mem_cons_self, if_false]
      rw [ih _ _ fun x hx => ht x (List.mem_cons_of_mem _ hx)]
      simp
  unfold splitColon
  induction texts with
  | nil => exact absurd rfl hne
  | cons t ts ih =>
    cases ts with
    | nil =>
      have := h0 t [] [] (h t List.mem_cons_self)
      simp only [List.append_nil, List.nil_append] at this
      simp [List.intercalate, this, splitColonAux]
    | cons t' ts =>
      have e : [':'].intercalate (t :: t' :: ts) = t ++ ':' :: [':'].intercalate (t' :: ts) := by
        simp [List.intercalate, List.intersperse]
      rw [e, h0 t [] _ (h t List.mem_cons_self), List.nil_append]
      simp only [splitColonAux, if_true]
      rw [ih (by simp) fun x hx => h x (List.mem_cons_of_mem _ hx)]

theorem strip_solid (s : Str) (h : ∀ c ∈ s, isSpace c = false) : strip s = s := by
  cases s with
  | nil => rfl
  | cons c s =>
    have := strip_core [] (c :: s) [] (by intro x hx; simp at hx) (by intro x hx; simp at hx)
      (by simpa using h c List.mem_cons_self)
      (fun x hx => h x (List.mem_of_getLast? hx)) (by simp)
    simpa using this

theorem digitChar_plain (d : Fin 10) :
    digitChar d ≠ ':' ∧ digitChar d ≠ '\'' ∧ isSpace (digitChar d) = false := by
  revert d; decide

theorem keyText_plain (k : Key) (t : Str) (h : KeyText k t) :
    ∀ c ∈ t, c ≠ ':' ∧ c ≠ '\'' ∧ isSpace c = false := by
  cases h with
  | int ds _ =>
    intro c hc
    obtain ⟨d, -, rfl⟩ := List.mem_map.mp hc
    exact digitChar_plain d
  | name s _ h => exact fun c hc => ⟨(h c hc).1, (h c hc).2.1, (not_white_iff c).1 (h c hc).2.2⟩

theorem parsePart_text (k : Key) (t : Str) (h : KeyText k t) : parsePart t = k := by
  have hp := keyText_plain k t h
  unfold parsePart
  rw [strip_solid t fun c hc => (hp c hc).2.2]
  cases h with
  | int ds hds =>
    have : ds.map digitChar ≠ [] := by simpa using hds
    simp only [ne_eq, this, not_false_eq_true, decide_true, all_digits, Bool.and_self, if_true,
      ofDigits_digits]
  | name _ hs _ =>
    obtain ⟨c, hc, hd⟩ := hs
    have : t.all isDigit = false := by
      rw [List.all_eq_false]
      exact ⟨c, hc, by simp [isDigit_false hd]⟩
    simp only [this, Bool.and_false, Bool.false_eq_true, if_false]

theorem parseName_path (path : List Key) (w : Str) (h : PathText path w) : parseName w = path := by
  obtain ⟨⟨texts, h1, h2, h3⟩, -, -⟩ := h
  have hk : ∀ t ∈ texts, ∃ k, KeyText k t := by
    clear h2 h3
    induction h1 with
    | nil => simp
    | cons h _ ih =>
      intro t ht
      rcases List.mem_cons.mp ht with rfl | ht
      · exact ⟨_, h⟩
      · exact ih t ht
  unfold parseName
  rw [h3, splitColon_intercalate texts h2 fun t ht c hc => by
    obtain ⟨k, hkt⟩ := hk t ht
    exact (keyText_plain k t hkt c hc).1]
  clear h2 h3 hk
  induction h1 with
  | nil => rfl
  | cons h _ ih => rw [List.map_cons, parsePart_text _ _ h, ih]

theorem pathText_ne_nil (path : List Key) (w : Str) (h : PathText path w) : path ≠ [] := by
  obtain ⟨⟨texts, h1, h2, -⟩, -, -⟩ := h
  rintro rfl
  cases h1
  exact h2 rfl

/-! ### Values -/

theorem parseValue_word (t : Str) (h : Word t) : parseValue t = .str (lower t) := by
  obtain ⟨-, -, -, h1, h2, h3, h4⟩ := h
  unfold parseValue
  simp only [h1, h2, h3, if_false]
  cases hp : parseNum (lower t) with
  | none => rfl
  | some q =>
    obtain ⟨n, hn, ht⟩ := parseNum_inv _ _ hp
    exact absurd ht (h4 n hn)

theorem denotes_facts (v : Scalar) (t : Str) (h : Denotes v t) :
    parseValue t = v ∧ t.head? ≠ some '#' ∧ t.getLast? ≠ some ',' ∧ t ≠ [] := by
  rcases h with h | ⟨h, rfl⟩
  · exact ⟨C51_value_round_trip v t h, (writes_head v t h).1, writes_last v t h,
      (writes_head v t h).2.1⟩
  · exact ⟨parseValue_word t h, h.1, h.2.1, h.2.2.1⟩

theorem parseValues_denotes (ws : List (Scalar × Str × ℕ)) (h : ∀ w ∈ ws, Denotes w.1 w.2.1)
    (comment : List Str) (hc : ∀ c, comment.head? = some c → c.head? = some '#') :
    parseValues (ws.map (fun w => w.2.1 ++ List.replicate w.2.2 ',') ++ comment) =
      meaning (ws.map Prod.fst) := by
  have htake : ((ws.map (fun w => w.2.1 ++ List.replicate w.2.2 ',') ++ comment).takeWhile
      fun t => t.head? ≠ some '#') = ws.map (fun w => w.2.1 ++ List.replicate w.2.2 ',') := by
    induction ws with
    | nil =>
      cases comment with
      | nil => rfl
      | cons c cs => simp [hc c rfl]
    | cons w ws ih =>
      have hw := denotes_facts _ _ (h w List.mem_cons_self)
      have hh : (w.2.1 ++ List.replicate w.2.2 ',').head? ≠ some '#' := by
        cases ht : w.2.1 with
        | nil => exact absurd ht hw.2.2.2
        | cons c s =>
          have := hw.2.1
          rw [ht] at this
          simpa using this
      rw [List.map_cons, List.cons_append, List.takeWhile_cons]
      rw [if_pos (decide_eq_true hh), ih fun x hx => h x (List.mem_cons_of_mem _ hx)]
  have hmap : (ws.map (fun w => w.2.1 ++ List.replicate w.2.2 ',')).map
      (fun t => parseValue (rstripComma t)) = ws.map Prod.fst := by
    rw [List.map_map]
    apply List.map_congr_left
    intro w hw
    have hw' := denotes_facts _ _ (h w hw)
    simp only [Function.comp]
    rw [rstripComma_commas _ _ hw'.2.2.1, hw'.1]
  unfold parseValues
  rw [htake, hmap]
  generalize ws.map Prod.fst = vs
  match vs with
  | [] => rfl
  | [v] => rfl
  | v :: v' :: vs => rfl

/-- What `assign` stores for the words of an entry. -/
theorem assign_words (st : St) (parts : List Key) (vs : List Scalar) (ws : List Str)
    (h : ValueWords vs ws) :
    ws ≠ [] ∧ assign st parts ws = store st parts (meaning vs) := by
  obtain ⟨eq, xs, comment, rfl, h1, rfl, h2, h3, h4⟩ := h
  have hv := parseValues_denotes xs h1 comment h3
  cases eq with
  | true =>
    refine ⟨by simp, ?_⟩
    simp only [if_true, List.cons_append, List.nil_append, assign, hv]
  | false =>
    have h5 := h4 rfl
    cases xs with
    | nil => exact absurd rfl h2
    | cons x xs =>
      refine ⟨by simp, ?_⟩
      simp only [List.map_cons, List.head?_cons, ne_eq, Option.some.injEq] at h5
      simp only [List.map_cons, List.cons_append] at hv
      simp only [Bool.false_eq_true, if_false, List.nil_append, List.map_cons, List.cons_append,
        assign, h5, hv]

/-! ### Stacking entries -/

/-- What `stack` does to the values at all paths, if no value other than a dict is in the way. -/
theorem stack_spec (es : List (Key × Tree)) (k : Key) (ks : List Key) (v : Tree)
    (h : ∀ q, q <+: k :: ks → q ≠ [] → q ≠ k :: ks →
      vAt (.dict es) q = none ∨ ∃ sub, vAt (.dict es) q = some (.dict sub)) :
    ∃ es', stack es k ks v = .ok es' ∧ (∀ r, vAt (.dict es') (k :: ks ++ r) = vAt v r) ∧
      (∀ q, q <+: k :: ks → q ≠ [] → q ≠ k :: ks → ∃ sub, vAt (.dict es') q = some (.dict sub)) ∧
      (∀ q, ¬ q <+: k :: ks → ¬ k :: ks <+: q → vAt (.dict es') q = vAt (.dict es) q) := by
  have hother : ∀ (t : Tree) (q : List Key), (∀ x q', q = x :: q' → x ≠ k) → q ≠ [] →
      vAt (.dict (put es k t)) q = vAt (.dict es) q := by
    intro t q hq hne
    cases q with
    | nil => exact absurd rfl hne
    | cons x q => rw [vAt_cons_dict, vAt_cons_dict, lookup_put, if_neg (hq x q rfl)]
  induction ks generalizing es k with
  | nil =>
    refine ⟨put es k v, rfl, ?_, ?_, ?_⟩
    · intro r
      rw [List.cons_append, List.nil_append, vAt_cons_dict, lookup_put, if_pos rfl, Option.bind_some]
    · intro q hq hne hne'
      rcases q with _ | ⟨x, _ | ⟨y, q⟩⟩
      · exact absurd rfl hne
      · have := List.cons_prefix_cons.mp hq
        exact absurd (by rw [this.1]) hne'
      · have := (List.cons_prefix_cons.mp hq).2
        simp at this
    · intro q hq hq'
      apply hother
      · rintro x q' rfl rfl
        exact hq' (by simp)
      · rintro rfl
        exact hq (List.nil_prefix)
  | cons k' ks' ih =>
    have hk := h [k] (by simp) (by simp) (by simp)
    rw [vAt_cons_dict] at hk
    -- the sub-dict to go on with
    have hsub : ∃ sub, (lookup es k = none ∧ sub = [] ∨ lookup es k = some (.dict sub)) := by
      cases hl : lookup es k with
      | none => exact ⟨[], Or.inl ⟨rfl, rfl⟩⟩
      | some t =>
        rw [hl] at hk
        rcases hk with hk | ⟨sub, hk⟩
        · simp [vAt] at hk
        · simp only [Option.bind_some, vAt, Option.some.injEq] at hk
          exact ⟨sub, Or.inr (by rw [hk])⟩
    obtain ⟨sub, hsub⟩ := hsub
    have hbind : ∀ q, q ≠ [] →
        ((lookup es k).bind fun t => vAt t q) = vAt (.dict sub) q := by
      intro q hq
      cases q with
      | nil => exact absurd rfl hq
      | cons x q =>
        rcases hsub with ⟨h1, h2⟩ | h1
        · rw [h1, h2]; rfl
        · rw [h1]; rfl
    obtain ⟨sub', h1, h2, h3, h4⟩ := ih sub k' (by
      intro q hq hne hne'
      have := h (k :: q) (List.cons_prefix_cons.mpr ⟨rfl, hq⟩) (by simp) (by
        intro h; exact hne' (List.cons.inj h).2)
      rw [vAt_cons_dict, hbind q hne] at this
      exact this) (by
      intro t q hq hne
      cases q with
      | nil => exact absurd rfl hne
      | cons x q => rw [vAt_cons_dict, vAt_cons_dict, lookup_put, if_neg (hq x q rfl)])
    have hval : ∀ q, vAt (.dict (put es k (.dict sub'))) (k :: q) = vAt (.dict sub') q := by
      intro q
      rw [vAt_cons_dict, lookup_put, if_pos rfl, Option.bind_some]
    refine ⟨put es k (.dict sub'), ?_, ?_, ?_, ?_⟩
    · unfold stack
      rcases hsub with ⟨e1, rfl⟩ | e1
      · rw [e1]; simp only; rw [h1]; rfl
      · rw [e1]; simp only; rw [h1]; rfl
    · intro r
      have := h2 r
      rw [List.cons_append] at this ⊢
      rw [hval, List.cons_append, this]
    · intro q hq hne hne'
      cases q with
      | nil => exact absurd rfl hne
      | cons x q =>
        obtain ⟨hx, hq2⟩ := List.cons_prefix_cons.mp hq
        subst hx
        rw [hval]
        cases q with
        | nil => exact ⟨sub', rfl⟩
        | cons y q => exact h3 _ hq2 (by simp) (by intro h; exact hne' (by rw [h]))
    · intro q hq hq'
      cases q with
      | nil => exact absurd List.nil_prefix hq
      | cons x q =>
        by_cases hx : x = k
        · subst hx
          have hq1 : ¬ q <+: k' :: ks' := fun h => hq (List.cons_prefix_cons.mpr ⟨rfl, h⟩)
          have hq2 : ¬ k' :: ks' <+: q := fun h => hq' (List.cons_prefix_cons.mpr ⟨rfl, h⟩)
          have hne : q ≠ [] := by rintro rfl; exact hq1 List.nil_prefix
          rw [hval, h4 q hq1 hq2, vAt_cons_dict, hbind q hne]
        · apply hother
          · intro y q' hy hyk
            exact hx ((List.cons.inj hy).1.trans hyk)
          · simp

/-- Adding entries one after another. -/
def stackAll (cur : List (Key × Tree)) : List (List Key × Tree) → Except Err (List (Key × Tree))
  | [] => .ok cur
  | e :: es =>
    match e.1 with
    | [] => .ok cur
    | k :: ks => do
      let cur ← stack cur k ks e.2
      stackAll cur es

/-- The dict holds exactly the given entries. -/
structure Holds (E : List (List Key × Tree)) (cur : List (Key × Tree)) : Prop where
  last : ∀ E1 p v E2, E = E1 ++ (p, v) :: E2 → (∀ e ∈ E2, e.1 ≠ p) → vAt (.dict cur) p = some v
  inner : ∀ q, q ≠ [] → (∃ e ∈ E, q <+: e.1 ∧ q ≠ e.1) → ∃ sub, vAt (.dict cur) q = some (.dict sub)
  none : ∀ q, q ≠ [] → (∀ e ∈ E, ¬ q <+: e.1) → vAt (.dict cur) q = none

/-- The conditions on the entries of a dict. -/
def Good (E : List (List Key × Tree)) : Prop :=
  (∀ p ∈ E, ∀ q ∈ E, p.1 <+: q.1 → p.1 = q.1) ∧ (∀ p ∈ E, p.1 ≠ []) ∧
    ∀ p ∈ E, ∀ es, p.2 ≠ Tree.dict es

theorem vAt_not_dict (v : Tree) (r : List Key) (hr : r ≠ []) (h : ∀ es, v ≠ Tree.dict es) :
    vAt v r = none := by
  cases r with
  | nil => exact absurd rfl hr
  | cons k ks =>
    cases v with
    | leaf s => rfl
    | seq xs => rfl
    | dict es => exact absurd rfl (h es)

theorem holds_step (E : List (List Key × Tree)) (cur : List (Key × Tree)) (k : Key) (ks : List Key)
    (v : Tree) (hh : Holds E cur) (hg : Good (E ++ [(k :: ks, v)])) :
    ∃ cur', stack cur k ks v = .ok cur' ∧ Holds (E ++ [(k :: ks, v)]) cur' := by
  obtain ⟨g1, g2, g3⟩ := hg
  have hmem : ∀ e ∈ E, e ∈ E ++ [(k :: ks, v)] := fun e he => List.mem_append_left _ he
  have hnew : (k :: ks, v) ∈ E ++ [(k :: ks, v)] := by simp
  obtain ⟨cur', h1, h2, h3, h4⟩ := stack_spec cur k ks v (by
    intro q hq hne hne'
    by_cases hex : ∃ e ∈ E, q <+: e.1
    · obtain ⟨e, he, hqe⟩ := hex
      right
      refine hh.inner q hne ⟨e, he, hqe, ?_⟩
      intro heq
      subst heq
      exact hne' (g1 e (hmem e he) _ hnew hq)
    · left
      push Not at hex
      exact hh.none q hne hex)
  refine ⟨cur', h1, ?_, ?_, ?_⟩
  · intro E1 p w E2 hsplit hlast
    rcases List.eq_nil_or_concat E2 with rfl | ⟨E2', x, rfl⟩
    · have := List.append_inj' hsplit (by simp)
      simp only [List.cons.injEq, Prod.mk.injEq, and_true] at this
      rw [← this.2.1, ← this.2.2, ← List.append_nil (k :: ks), h2 []]
      rfl
    · have hs : E ++ [(k :: ks, v)] = (E1 ++ (p, w) :: E2') ++ [x] := by rw [hsplit]; simp
      have := List.append_inj' hs (by simp)
      obtain ⟨e1, e2⟩ := this
      simp only [List.cons.injEq, and_true] at e2
      have hpE : (p, w) ∈ E := by rw [e1]; simp
      have hne : p ≠ k :: ks := by
        have := hlast x (by simp)
        rw [← e2] at this
        exact fun h => this h.symm
      rw [h4 p (fun h => hne (g1 _ (hmem _ hpE) _ hnew h))
        (fun h => hne (g1 _ hnew _ (hmem _ hpE) h).symm)]
      exact hh.last E1 p w E2' e1 fun e he => hlast e (by simp [he])
  · rintro q hne ⟨e, he, hqe, hqne⟩
    by_cases hq : q <+: k :: ks ∧ q ≠ k :: ks
    · exact h3 q hq.1 hne hq.2
    · have heE : e ∈ E := by
        rcases List.mem_append.mp he with h | h
        · exact h
        · simp only [List.mem_singleton] at h
          subst h
          exact absurd ⟨hqe, hqne⟩ hq
      have hq1 : ¬ k :: ks <+: q := by
        intro h
        have := g1 _ hnew _ he (h.trans hqe)
        simp only at this
        rw [← this] at hqe hqne
        exact hqne (hqe.eq_of_length (le_antisymm hqe.length_le h.length_le))
      have hq2 : ¬ q <+: k :: ks := by
        intro h
        by_cases hqk : q = k :: ks
        · exact hq1 (by rw [hqk]; exact List.prefix_refl _)
        · exact hq ⟨h, hqk⟩
      rw [h4 q hq2 hq1]
      exact hh.inner q hne ⟨e, heE, hqe, hqne⟩
  · intro q hne hq
    have hq1 : ¬ q <+: k :: ks := hq _ hnew
    by_cases hq2 : k :: ks <+: q
    · obtain ⟨r, rfl⟩ := hq2
      rw [h2 r]
      refine vAt_not_dict v r ?_ (g3 _ hnew)
      rintro rfl
      simp at hq1
    · rw [h4 q hq1 hq2]
      exact hh.none q hne fun e he => hq e (hmem e he)

theorem stackAll_holds (E F : List (List Key × Tree)) (cur : List (Key × Tree)) (hh : Holds E cur)
    (hg : Good (E ++ F)) : ∃ cur', stackAll cur F = .ok cur' ∧ Holds (E ++ F) cur' := by
  induction F generalizing E cur with
  | nil => exact ⟨cur, rfl, by simpa using hh⟩
  | cons e F ih =>
    obtain ⟨p, v⟩ := e
    have hp : p ≠ [] := hg.2.1 (p, v) (by simp)
    cases p with
    | nil => exact absurd rfl hp
    | cons k ks =>
      have hsub : ∀ x ∈ E ++ [(k :: ks, v)], x ∈ E ++ (k :: ks, v) :: F := by
        intro x hx
        simp only [List.mem_append, List.mem_cons] at hx ⊢
        tauto
      obtain ⟨cur', h1, h2⟩ := holds_step E cur k ks v hh
        ⟨fun a ha b hb => hg.1 a (hsub a ha) b (hsub b hb), fun a ha => hg.2.1 a (hsub a ha),
          fun a ha => hg.2.2 a (hsub a ha)⟩
      obtain ⟨cur'', h3, h4⟩ := ih (E ++ [(k :: ks, v)]) cur' h2 (by simpa using hg)
      refine ⟨cur'', ?_, by simpa using h4⟩
      simp only [stackAll, h1, bind, Except.bind, h3]

theorem holds_nil : Holds [] [] := by
  refine ⟨by simp, by simp, ?_⟩
  intro q hne _
  cases q with
  | nil => exact absurd rfl hne
  | cons k ks => rfl

/-! ### Reading documents -/

theorem readLine_entry (st : St) (path : List Key) (vs : List Scalar) (line : Str)
    (h : IsEntry path vs line) (hb : st.building ≠ none ∨ path.length = 1) :
    readLine st line = store st path (meaning vs) := by
  obtain ⟨w, ws, h1, h2, h3⟩ := h
  rw [readLine_words st line w ws h1 h2.2.1 h2.2.2]
  obtain ⟨h4, h5⟩ := assign_words st path vs ws h3
  simp only [entry, parseName_path path w h2]
  cases hb' : st.building with
  | some x => simp only; exact h5
  | none =>
    have : path.length = 1 := hb.resolve_left (by simp [hb'])
    simp only [this, lt_irrefl, if_false, h4]
    exact h5

theorem readLine_name (st : St) (k : Key) (line : Str) (h : IsName k line)
    (hb : st.building = none) : readLine st line = .ok { st with dictName := some k } := by
  obtain ⟨w, h1, h2⟩ := h
  rw [readLine_words st line w [] h1 h2.2.1 h2.2.2]
  simp [entry, parseName_path [k] w h2, hb]

theorem fold_skips (st : St) (skips : List Str) (h : ∀ s ∈ skips, IsSkip s) :
    skips.foldlM readLine st = .ok st := by
  induction skips with
  | nil => rfl
  | cons s skips ih =>
    rw [List.foldlM_cons, readLine_skip st s (h s List.mem_cons_self)]
    exact ih fun x hx => h x (List.mem_cons_of_mem _ hx)

theorem fold_body (st : St) (name : Key) (cur cur' : List (Key × Tree)) (body : List Str)
    (es : List (List Key × Tree)) (h : Body body es) (hb : st.building = some (name, cur))
    (hs : stackAll cur es = .ok cur') :
    body.foldlM readLine st = .ok { st with building := some (name, cur') } := by
  induction h generalizing st cur with
  | nil =>
    simp only [stackAll, Except.ok.injEq] at hs
    rw [← hs, ← hb]
    rfl
  | skip l ls es hl _ ih =>
    rw [List.foldlM_cons, readLine_skip st l hl]
    exact ih st cur hb hs
  | entry l ls es p vs hl _ ih =>
    obtain ⟨w, ws, h1, h2, h3⟩ := id hl
    rw [List.foldlM_cons, readLine_entry st p vs l hl (Or.inl (by simp [hb]))]
    cases p with
    | nil => exact absurd rfl (pathText_ne_nil _ _ h2)
    | cons k ks =>
      simp only [stackAll] at hs
      cases hst : stack cur k ks (meaning vs) with
      | error e => rw [hst] at hs; simp [bind, Except.bind] at hs
      | ok cur1 =>
        rw [hst] at hs
        simp only [bind, Except.bind] at hs
        have e1 : store st (k :: ks) (meaning vs) =
            .ok { st with building := some (name, cur1) } := by
          simp only [store, hb, hst, bind, Except.bind, pure, Except.pure]
        rw [e1]
        exact ih { st with building := some (name, cur1) } cur1 rfl hs

theorem meaning_not_dict (vs : List Scalar) : ∀ es, meaning vs ≠ Tree.dict es := by
  intro es
  unfold meaning
  split <;> simp

theorem body_good (body : List Str) (es : List (List Key × Tree)) (h : Body body es)
    (hp : ∀ p ∈ es, ∀ q ∈ es, p.1 <+: q.1 → p.1 = q.1) : Good es := by
  refine ⟨hp, ?_, ?_⟩
  · clear hp
    induction h with
    | nil => simp
    | skip _ _ _ _ _ ih => exact ih
    | entry l ls es p vs hl _ ih =>
      obtain ⟨w, ws, _, h2, _⟩ := hl
      intro x hx
      rcases List.mem_cons.mp hx with rfl | hx
      · exact pathText_ne_nil _ _ h2
      · exact ih x hx
  · clear hp
    induction h with
    | nil => simp
    | skip _ _ _ _ _ ih => exact ih
    | entry l ls es p vs hl _ ih =>
      intro x hx
      rcases List.mem_cons.mp hx with rfl | hx
      · exact meaning_not_dict vs
      · exact ih x hx

/-- The tree stored for an attribute. -/
def ContentTree : Content → Tree → Prop
  | .value t, u => u = t
  | .block es, u => ∃ cur, u = .dict cur ∧ Holds es cur

/-- The attributes after the definitions `d`, starting from `attrs`. -/
def AttrsRel (attrs : List (Key × Tree)) (d : List (Str × Content)) (attrs' : List (Key × Tree)) :
    Prop :=
  ∀ n : Str,
    (∀ A c B, d = A ++ (n, c) :: B → (∀ x ∈ B, x.1 ≠ n) →
      ∃ t, lookup attrs' (.name n) = some t ∧ ContentTree c t) ∧
    ((∀ x ∈ d, x.1 ≠ n) → lookup attrs' (.name n) = lookup attrs (.name n))

theorem attrsRel_cons (attrs attrs1 attrs' : List (Key × Tree)) (d : List (Str × Content)) (n : Str)
    (c : Content) (t : Tree) (h1 : attrs1 = put attrs (.name n) t) (hc : ContentTree c t)
    (h : AttrsRel attrs1 d attrs') : AttrsRel attrs ((n, c) :: d) attrs' := by
  intro m
  constructor
  · intro A c' B hsplit hB
    cases A with
    | nil =>
      simp only [List.nil_append, List.cons.injEq, Prod.mk.injEq] at hsplit
      obtain ⟨⟨rfl, rfl⟩, rfl⟩ := hsplit
      refine ⟨t, ?_, hc⟩
      rw [(h n).2 hB, h1, lookup_put, if_pos rfl]
    | cons a A =>
      simp only [List.cons_append, List.cons.injEq] at hsplit
      exact (h m).1 A c' B hsplit.2 hB
  · intro hm
    have hne : n ≠ m := hm (n, c) List.mem_cons_self
    rw [(h m).2 fun x hx => hm x (List.mem_cons_of_mem _ hx), h1, lookup_put, if_neg]
    intro he
    exact hne (Key.name.inj he).symm

theorem fold_doc (st : St) (ls : List Str) (d : List (Str × Content)) (h : Doc ls d)
    (hb : st.building = none) :
    ∃ st', ls.foldlM readLine st = .ok st' ∧ st'.building = none ∧
      AttrsRel st.attrs d st'.attrs := by
  induction h generalizing st with
  | nil => exact ⟨st, rfl, hb, fun n => ⟨by simp, fun _ => rfl⟩⟩
  | skip l ls d hl _ ih =>
    rw [List.foldlM_cons, readLine_skip st l hl]
    exact ih st hb
  | attr l ls d n vs hl _ ih =>
    have e1 : readLine st l =
        .ok { st with attrs := put st.attrs (.name n) (meaning vs) } := by
      rw [readLine_entry st _ vs l hl (Or.inr rfl)]
      simp only [store, hb, addAttr]
    obtain ⟨st', h1, h2, h3⟩ := ih { st with attrs := put st.attrs (.name n) (meaning vs) } hb
    refine ⟨st', ?_, h2, attrsRel_cons _ _ _ d n _ (meaning vs) rfl rfl h3⟩
    rw [List.foldlM_cons, e1]
    exact h1
  | block l skips r1 body r2 ls d n es hl hsk hr1 hbody hpre hr2 _ ih =>
    have hn : n ≠ [] := by
      obtain ⟨w, _, ⟨texts, hk, _, _⟩, _⟩ := hl
      cases hk with
      | cons hk _ =>
        cases hk with
        | name _ hc _ =>
          obtain ⟨c, hc, _⟩ := hc
          rintro rfl
          simp at hc
    obtain ⟨cur, hcur, hholds⟩ := stackAll_holds [] es [] holds_nil (by
      simpa using body_good body es hbody hpre)
    rw [List.nil_append] at hholds
    have e1 := readLine_name st (.name n) l hl hb
    have e2 := fold_skips { st with dictName := some (.name n) } skips hsk
    have e3 : readLine { st with dictName := some (.name n) } r1 =
        .ok { st with dictName := some (.name n), building := some (.name n, []) } := by
      rw [readLine_rule _ _ hr1]
      simp [hyphens, hb, Key.truthy, hn]
    have e4 := fold_body { st with dictName := some (.name n), building := some (.name n, []) }
      (.name n) [] cur body es hbody rfl hcur
    have e5 : readLine { st with dictName := some (.name n), building := some (.name n, cur) } r2 =
        .ok ⟨put st.attrs (.name n) (.dict cur), none, none⟩ := by
      rw [readLine_rule _ _ hr2]
      rfl
    obtain ⟨st', h1, h2, h3⟩ := ih ⟨put st.attrs (.name n) (.dict cur), none, none⟩ rfl
    refine ⟨st', ?_, h2, attrsRel_cons _ _ _ d n (.block es) (.dict cur) rfl ⟨cur, rfl, hholds⟩ h3⟩
    rw [List.foldlM_cons, e1]
    simp only [bind, Except.bind]
    rw [List.foldlM_append, e2]
    simp only [bind, Except.bind]
    rw [List.foldlM_cons, e3]
    simp only [bind, Except.bind]
    rw [List.foldlM_append, e4]
    simp only [bind, Except.bind]
    rw [List.foldlM_cons, e5]
    exact h1

theorem getIn_entry (attrs cur : List (Key × Tree)) (n k : Key) (ks : List Key)
    (h : lookup attrs n = some (.dict cur)) : getIn attrs n (k :: ks) = getIn cur k ks := by
  simp only [getIn, h]

/-- C63: a well-formed document is read without error, and afterwards
* an attribute defined (last) by a line of values has that value;
* for a dict defined (last) by a block, looking up the path of an entry gives the value written (last)
  for that path;
* looking up a path that is unrelated to all entries of the block gives an empty dict;
* looking up a proper beginning of the path of an entry gives a dict;
* looking up a name that is not defined gives an empty dict. -/
theorem C63_document (lines : List Str) (d : List (Str × Content)) (h : Doc lines d)
    (hne : lines ≠ []) :
    ∃ st, read lines = .ok st ∧ st.building = none ∧
      (∀ A n t B, d = A ++ (n, .value t) :: B → (∀ x ∈ B, x.1 ≠ n) →
        get st.attrs (.name n) [] = .ok t) ∧
      (∀ A n es B, d = A ++ (n, .block es) :: B → (∀ x ∈ B, x.1 ≠ n) →
        (∀ E1 p v E2, es = E1 ++ (p, v) :: E2 → (∀ e ∈ E2, e.1 ≠ p) →
          get st.attrs (.name n) p = .ok v) ∧
        (∀ q, q ≠ [] → (∀ e ∈ es, ¬ q <+: e.1 ∧ ¬ e.1 <+: q) →
          get st.attrs (.name n) q = .ok (.dict [])) ∧
        (∀ q, (∃ e ∈ es, q <+: e.1 ∧ q ≠ e.1) →
          ∃ sub, get st.attrs (.name n) q = .ok (.dict sub))) ∧
      (∀ n q, (∀ x ∈ d, x.1 ≠ n) → get st.attrs (.name n) q = .ok (.dict [])) := by
  obtain ⟨st, h1, h2, h3⟩ := fold_doc ⟨[], none, none⟩ lines d h rfl
  have hgood : ∀ A n es B, d = A ++ (n, .block es) :: B → ∀ e ∈ es, e.1 ≠ [] := by
    clear h1 h2 h3 hne
    induction h with
    | nil => intro A n es B hs; simp at hs
    | skip _ _ _ _ _ ih => exact ih
    | attr l ls d n vs _ _ ih =>
      intro A m es B hs
      cases A with
      | nil => simp at hs
      | cons a A =>
        simp only [List.cons_append, List.cons.injEq] at hs
        exact ih A m es B hs.2
    | block l skips r1 body r2 ls d n es _ _ _ hbody hpre _ _ ih =>
      intro A m es' B hs
      cases A with
      | nil =>
        simp only [List.nil_append, List.cons.injEq, Prod.mk.injEq, Content.block.injEq] at hs
        rw [← hs.1.2]
        exact (body_good body es hbody hpre).2.1
      | cons a A =>
        simp only [List.cons_append, List.cons.injEq] at hs
        exact ih A m es' B hs.2
  refine ⟨st, by rw [read, if_neg hne]; exact h1, h2, ?_, ?_, ?_⟩
  · intro A n t B hs hB
    obtain ⟨u, hu, hc⟩ := (h3 n).1 A _ B hs hB
    simp only [ContentTree] at hc
    simp only [get, getIn, hu, hc]
  · intro A n es B hs hB
    have hne' := hgood A n es B hs
    obtain ⟨u, hu, cur, rfl, hh⟩ := (h3 n).1 A _ B hs hB
    have hget : ∀ k ks, get st.attrs (.name n) (k :: ks) = .ok (getIn cur k ks) := by
      intro k ks
      simp only [get, getIn_entry st.attrs cur _ k ks hu]
    refine ⟨?_, ?_, ?_⟩
    · intro E1 p v E2 hs' hlast
      have hp : p ≠ [] := hne' (p, v) (by rw [hs']; simp)
      cases p with
      | nil => exact absurd rfl hp
      | cons k ks => rw [hget, getIn_of_vAt cur k ks v (hh.last E1 _ v E2 hs' hlast)]
    · intro q hq hun
      cases q with
      | nil => exact absurd rfl hq
      | cons k ks =>
        rw [hget, getIn_missing cur k ks (hh.none _ hq fun e he => (hun e he).1)]
        intro p t hp hv
        by_cases hpn : p = []
        · subst hpn
          simp only [vAt, Option.some.injEq] at hv
          exact ⟨cur, hv.symm⟩
        · by_cases hex : ∃ e ∈ es, p <+: e.1
          · obtain ⟨e, he, hpe⟩ := hex
            obtain ⟨sub, hsub⟩ := hh.inner p hpn ⟨e, he, hpe, by
              rintro rfl
              exact (hun e he).2 hp⟩
            rw [hsub] at hv
            simp only [Option.some.injEq] at hv
            exact ⟨sub, hv.symm⟩
          · push Not at hex
            rw [hh.none p hpn hex] at hv
            simp at hv
    · rintro q ⟨e, he, hqe, hqne⟩
      cases q with
      | nil => exact ⟨cur, by simp only [get, getIn, hu]⟩
      | cons k ks =>
        obtain ⟨sub, hsub⟩ := hh.inner (k :: ks) (by simp) ⟨e, he, hqe, hqne⟩
        exact ⟨sub, by rw [hget, getIn_of_vAt cur k ks _ hsub]⟩
  · intro n q hn
    have hl := (h3 n).2 hn
    simp only [lookup] at hl
    cases q with
    | nil => simp only [get, getIn, hl]
    | cons k ks => simp only [get, getIn, hl]

/-- A document to which the theorem applies:
```
# specs
x = 1, Abc
params
--
'351':Rg  990
--
```
-/
example : Doc ["# specs\n".toList, "x = 1, Abc\n".toList, "params\n".toList, "--\n".toList,
      "'351':Rg  990\n".toList, "--\n".toList]
    [("x".toList, .value (.seq [.leaf (.num 1), .leaf (.str "abc".toList)])),
     ("params".toList, .block [([.int 351, .name "Rg".toList], .leaf (.num 990))])] := by
  have num1 : Writes (.num 1) "1".toList := by
    have := Writes.num ⟨none, [1], none, none⟩ "1".toList (by simp [Numeral.Ok]) (by decide +kernel)
    have e : Numeral.value ⟨none, [1], none, none⟩ = 1 := by decide +kernel
    rwa [e] at this
  have num990 : Writes (.num 990) "990".toList := by
    have := Writes.num ⟨none, [9, 9, 0], none, none⟩ "990".toList (by simp [Numeral.Ok])
      (by decide +kernel)
    have e : Numeral.value ⟨none, [9, 9, 0], none, none⟩ = 990 := by decide +kernel
    rwa [e] at this
  have abc : Word "Abc".toList := by
    refine ⟨by decide +kernel, by decide +kernel, by decide +kernel, by decide +kernel,
      by decide +kernel, by decide +kernel, fun n hn h => ?_⟩
    have h1 : parseNum (lower "Abc".toList) = none := by decide +kernel
    rw [h, parseNum_text n hn] at h1
    simp at h1
  refine .skip _ _ _ (Or.inr ⟨[], " specs\n".toList, by simp [Blank], rfl⟩) ?_
  refine .attr _ _ _ "x".toList [.num 1, .str "abc".toList] ⟨"x".toList,
    ["=".toList, "1,".toList, "Abc".toList],
    ⟨[], [(" ".toList, "=".toList), (" ".toList, "1,".toList), (" ".toList, "Abc".toList)],
      "\n".toList, by decide +kernel, ?_⟩, ⟨⟨["x".toList], ?_, ?_⟩, ?_⟩, true,
      [(.num 1, "1".toList, 1), (.str "abc".toList, "Abc".toList, 0)], [], ?_⟩ ?_
  · unfold Blank Solid; decide +kernel
  · exact .cons (.name _ (by decide +kernel) (by decide +kernel)) .nil
  · decide +kernel
  · decide +kernel
  · refine ⟨by decide +kernel, ?_, by decide +kernel, by simp, by simp, by simp⟩
    intro x hx
    simp only [List.mem_cons, List.not_mem_nil, or_false] at hx
    rcases hx with rfl | rfl
    · exact Or.inl num1
    · exact Or.inr ⟨abc, by decide +kernel⟩
  refine .block _ [] _ ["'351':Rg  990\n".toList] _ [] [] "params".toList _
    ⟨"params".toList, ⟨[], [], "\n".toList, by decide +kernel, ?_⟩, ⟨["params".toList], ?_, ?_⟩, ?_⟩
    (by simp) ⟨[], "\n".toList, by simp [Blank], by decide +kernel⟩
    (.entry _ _ _ _ [.num 990] ⟨"'351':Rg".toList, ["990".toList],
      ⟨[], [("  ".toList, "990".toList)], "\n".toList, by decide +kernel, ?_⟩,
      ⟨⟨["351".toList, "Rg".toList], ?_, ?_⟩, ?_⟩, false, [(.num 990, "990".toList, 0)], [], ?_⟩ .nil)
    (by simp) ⟨[], "\n".toList, by simp [Blank], by decide +kernel⟩ .nil
  · unfold Blank Solid; decide +kernel
  · exact .cons (.name _ (by decide +kernel) (by decide +kernel)) .nil
  · decide +kernel
  · decide +kernel
  · unfold Blank Solid; decide +kernel
  · have := KeyText.int [3, 5, 1] (by simp)
    have e : natOf [3, 5, 1] = 351 := by decide +kernel
    rw [e] at this
    refine .cons this (.cons (.name _ (by decide +kernel) (by decide +kernel)) .nil)
  · decide +kernel
  · decide +kernel
  · refine ⟨by decide +kernel, ?_, by decide +kernel, by simp, by simp, by decide +kernel⟩
    intro x hx
    simp only [List.mem_cons, List.not_mem_nil, or_false] at hx
    rw [hx]
    exact Or.inl num990

/-! ### C52: any text -/

theorem mem_dropWhile (s : Str) (c : Char) (h : c ∈ s) (hc : isSpace c = false) :
    c ∈ s.dropWhile isSpace := by
  induction s with
  | nil => simp at h
  | cons x s ih =>
    rw [List.dropWhile_cons]
    split_ifs with hx
    · rcases List.mem_cons.mp h with rfl | h
      · rw [hc] at hx; simp at hx
      · exact ih h
    · exact h

theorem mem_strip (s : Str) (c : Char) (h : c ∈ s) (hc : isSpace c = false) : c ∈ strip s := by
  unfold strip
  rw [List.mem_reverse]
  exact mem_dropWhile _ c (List.mem_reverse.mpr (mem_dropWhile s c h hc)) hc

theorem parseName_plain (w : Str) (h1 : ':' ∉ w)
    (h2 : ∃ c ∈ w, c ≠ '\'' ∧ isDigit c = false ∧ isSpace c = false) :
    ∃ s, parseName w = [.name s] := by
  have e1 : splitColon (w.filter (· ≠ '\'')) = [w.filter (· ≠ '\'')] := by
    have := splitColon_intercalate [w.filter (· ≠ '\'')] (by simp) (by
      intro t ht c hc
      simp only [List.mem_singleton] at ht
      subst ht
      rintro rfl
      exact h1 (List.mem_filter.mp hc).1)
    simpa [List.intercalate] using this
  unfold parseName
  rw [e1]
  obtain ⟨c, hc, h3, h4, h5⟩ := h2
  have hm := mem_strip (w.filter (· ≠ '\'')) c (List.mem_filter.mpr ⟨hc, by simpa using h3⟩) h5
  refine ⟨strip (w.filter (· ≠ '\'')), ?_⟩
  have : (strip (w.filter (· ≠ '\''))).all isDigit = false := by
    rw [List.all_eq_false]
    exact ⟨c, hm, by simp [h4]⟩
  simp only [List.map_cons, List.map_nil, parsePart, this, Bool.and_false, Bool.false_eq_true,
    if_false]

/-- C52 (partial: only for files without dict definitions): a non-empty file without lines of hyphens,
in which the first word of every line that is not a comment has no colon and does not consist of digits
(and quotes), is read without error, whatever else it contains. -/
theorem C52_flat_total_partial (lines : List Str) (hne : lines ≠ [])
    (h : ∀ l ∈ lines, ¬ ['-', '-'] <+: strip l ∧ ((strip l).head? ≠ some '#' →
      ∀ w, (split (strip l)).head? = some w →
        ':' ∉ w ∧ ∃ c ∈ w, c ≠ '\'' ∧ isDigit c = false ∧ isSpace c = false)) :
    ∃ st, read lines = .ok st := by
  have key : ∀ (ls : List Str) (st : St), (∀ l ∈ ls, l ∈ lines) → st.building = none →
      ∃ st', ls.foldlM readLine st = .ok st' := by
    intro ls
    induction ls with
    | nil => intro st _ _; exact ⟨st, rfl⟩
    | cons l ls ih =>
      intro st hls hb
      obtain ⟨h1, h2⟩ := h l (hls l List.mem_cons_self)
      have hstep : ∃ st1, readLine st l = .ok st1 ∧ st1.building = none := by
        unfold readLine
        simp only
        split
        · exact ⟨st, rfl, hb⟩
        · exact ⟨st, rfl, hb⟩
        · rename_i y hy
          exact absurd ⟨y, hy.symm⟩ h1
        · rename_i hx _
          split
          · exact ⟨st, rfl, hb⟩
          · rename_i w ws hw
            have hhash : (strip l).head? ≠ some '#' := by
              intro hh
              cases hs : strip l with
              | nil => rw [hs] at hh; simp at hh
              | cons c s =>
                rw [hs] at hh
                simp only [List.head?_cons, Option.some.injEq] at hh
                exact hx s (by rw [hs, hh])
            obtain ⟨g1, g2⟩ := h2 hhash w (by rw [hw]; rfl)
            obtain ⟨s, hs⟩ := parseName_plain w g1 g2
            simp only [entry, hs, hb, List.length_singleton, lt_irrefl, if_false]
            split_ifs with hw0
            · exact ⟨_, rfl, rfl⟩
            · cases ws with
              | nil => exact absurd rfl hw0
              | cons t ts =>
                simp only [assign, store, hb, addAttr]
                exact ⟨_, rfl, rfl⟩
      obtain ⟨st1, e1, e2⟩ := hstep
      rw [List.foldlM_cons, e1]
      exact ih st1 (fun x hx => hls x (List.mem_cons_of_mem _ hx)) e2
  rw [read, if_neg hne]
  exact key lines _ (fun _ h => h) rfl

example : ∃ st, read ["x = 3".toList, "  # y".toList, "it's = \"a b\" #:".toList] = .ok st :=
  C52_flat_total_partial _ (by simp) (by decide +kernel)

/-- The error with which reading ends, if any. -/
def errOf (lines : List Str) : Option Err :=
  match read lines with
  | .ok _ => none
  | .error e => some e

/-- The full statement of C52 is false. An empty file crashes the reader; so does a line in a dict
definition with only a key; so does an integer as the name of an attribute; so does an entry below
another one that is not a dict. None of these is a `ValueError`. -/
theorem C52_crashes :
    errOf [] = some .unboundLocalError ∧
    errOf ["p".toList, "--".toList, "k".toList, "--".toList] = some .indexError ∧
    errOf ["5 3".toList] = some .typeError ∧
    errOf ["p".toList, "--".toList, "k 1".toList, "k:a 2".toList, "--".toList] = some .typeError ∧
    errOf ["p".toList, "--".toList, "k 1".toList, "k:a:b 2".toList, "--".toList] =
      some .attributeError := by decide +kernel

/-- Nor is everything either stored or reported: a dict definition without its second line of hyphens,
and a value written with an equals sign but without spaces, vanish silently. -/
theorem C52_vanishes :
    (∃ st, read ["p".toList, "--".toList, "k 1".toList] = .ok st ∧ st.attrs = []) ∧
    (∃ st, read ["x=5".toList] = .ok st ∧ st.attrs = []) := by
  have h : ∀ ls : List Str, (match read ls with | .ok st => st.attrs.isEmpty | .error _ => false) = true →
      ∃ st, read ls = .ok st ∧ st.attrs = [] := by
    intro ls h
    split at h
    · rename_i st hst
      exact ⟨st, hst, by simpa using h⟩
    · simp at h
  exact ⟨h _ (by decide +kernel), h _ (by decide +kernel)⟩

theorem stack_err (ks : List Key) : ∀ (es : List (Key × Tree)) (k : Key) (v : Tree),
    stack es k ks v ≠ .error .unboundLocalError := by
  induction ks with
  | nil => intro es k v; simp [stack]
  | cons k' ks ih =>
    intro es k v
    unfold stack
    split
    · have := ih [] k' v
      cases hs : stack [] k' ks v with
      | error e => rw [hs] at this; simpa [bind, Except.bind] using this
      | ok x => simp [bind, Except.bind, pure, Except.pure]
    · rename_i sub _
      have := ih sub k' v
      cases hs : stack sub k' ks v with
      | error e => rw [hs] at this; simpa [bind, Except.bind] using this
      | ok x => simp [bind, Except.bind, pure, Except.pure]
    · split
      · simp
      · simp
      · split_ifs <;> simp
    · split <;> simp

theorem addAttr_err (st : St) (k : Key) (t : Tree) : addAttr st k t ≠ .error .unboundLocalError := by
  cases k <;> simp [addAttr]

theorem assign_err (st : St) (parts : List Key) (ts : List Str) :
    assign st parts ts ≠ .error .unboundLocalError := by
  unfold assign
  split
  · simp
  · generalize parseValues _ = v
    unfold store
    split
    · rename_i name es k ks _
      have := stack_err ks es k v
      cases hs : stack es k ks v with
      | error e => rw [hs] at this; simpa [bind, Except.bind] using this
      | ok x => simp [bind, Except.bind, pure, Except.pure]
    · exact addAttr_err _ _ _
    · simp

theorem readLine_err (st : St) (l : Str) : readLine st l ≠ .error .unboundLocalError := by
  unfold readLine
  simp only
  split
  · simp
  · simp
  · unfold hyphens
    split
    · rename_i name es _
      have := addAttr_err st name (.dict es)
      cases hs : addAttr st name (.dict es) with
      | error e => rw [hs] at this; simpa [bind, Except.bind] using this
      | ok x => simp [bind, Except.bind, pure, Except.pure]
    · split
      · simp
      · split_ifs <;> simp
  · split
    · simp
    · unfold entry
      simp only
      split
      · exact assign_err _ _ _
      · split_ifs
        · simp
        · simp
        · exact assign_err _ _ _

/-- Only the file without lines fails for want of a line: it is the only text for which the reader hits an
unset variable. -/
theorem C52_unset_iff (lines : List Str) :
    read lines = .error .unboundLocalError ↔ lines = [] := by
  constructor
  · intro h
    by_contra hne
    rw [read, if_neg hne] at h
    have key : ∀ (ls : List Str) (st : St), ls.foldlM readLine st ≠ .error .unboundLocalError := by
      intro ls
      induction ls with
      | nil => intro st; simp [pure, Except.pure]
      | cons l ls ih =>
        intro st
        rw [List.foldlM_cons]
        have := readLine_err st l
        cases hs : readLine st l with
        | error e => rw [hs] at this; simpa [bind, Except.bind] using this
        | ok x => exact ih x
    exact key _ _ h
  · rintro rfl
    rfl

end Specs
end Ade
