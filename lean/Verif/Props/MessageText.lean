import Verif.Model.MessageText
import Verif.Props.Util

/-!
# The text of a message (C148)
-/

set_option autoImplicit false

namespace Ade
namespace MessageText

open Messenger (Arg St writeLine Pre Post row)

/-- A part of a prototype: plain text, an escaped brace, or a field for the next argument. -/
inductive Piece where
  | plain (t : List Char)
  | openBrace
  | closeBrace
  | field (spec : List Char)
  deriving DecidableEq

/-- Text without braces. -/
def Plain (t : List Char) : Prop := '{' ∉ t ∧ '}' ∉ t

instance (t : List Char) : Decidable (Plain t) := by unfold Plain; infer_instance

/-- The plain parts and the format specifications have no braces. -/
def Piece.Ok : Piece → Prop
  | .plain t => Plain t
  | .field spec => Plain spec
  | _ => True

/-- How a part is written in a prototype. -/
def Piece.written : Piece → List Char
  | .plain t => t
  | .openBrace => ['{', '{']
  | .closeBrace => ['}', '}']
  | .field [] => ['{', '}']
  | .field (c :: spec) => '{' :: ':' :: c :: spec ++ ['}']

/-- A prototype with the given parts. -/
def proto (ps : List Piece) : List Char := ps.flatMap Piece.written

/-- The number of fields. -/
def fields : List Piece → ℕ
  | [] => 0
  | .field _ :: ps => fields ps + 1
  | _ :: ps => fields ps

variable (show_ : List Char → Arg → Option (List Char))

/-- The text that the parts stand for: each field is replaced by the next argument, whatever characters are in it; further arguments
have no effect. -/
inductive Shown : List Piece → List Arg → List Char → Prop
  | nil (args : List Arg) : Shown [] args []
  | plain (t : List Char) (ps : List Piece) (args : List Arg) (y : List Char) : Shown ps args y → Shown (.plain t :: ps) args (t ++ y)
  | openBrace (ps : List Piece) (args : List Arg) (y : List Char) : Shown ps args y → Shown (.openBrace :: ps) args ('{' :: y)
  | closeBrace (ps : List Piece) (args : List Arg) (y : List Char) : Shown ps args y → Shown (.closeBrace :: ps) args ('}' :: y)
  | field (spec x : List Char) (a : Arg) (ps : List Piece) (args : List Arg) (y : List Char) :
      show_ spec a = some x → Shown ps args y → Shown (.field spec :: ps) (a :: args) (x ++ y)

/-! ## Formatting -/

theorem format_plain (t u : List Char) (ht : Plain t) (args : List Arg) :
    formatFrom show_ .text (t ++ u) args = (formatFrom show_ .text u args).map (t ++ ·) := by
  induction t with
  | nil => simp
  | cons c t ih =>
    obtain ⟨h1, h2⟩ := ht
    simp only [List.mem_cons, not_or] at h1 h2
    rw [List.cons_append, formatFrom, if_neg (Ne.symm h1.1), if_neg (Ne.symm h2.1), ih ⟨h1.2, h2.2⟩, Option.map_map]
    rfl

theorem format_spec (spec r u : List Char) (hs : Plain spec) (args : List Arg) :
    formatFrom show_ (.field r) (spec ++ '}' :: u) args = formatFrom show_ (.field (spec.reverse ++ r)) ('}' :: u) args := by
  induction spec generalizing r with
  | nil => rfl
  | cons c t ih =>
    obtain ⟨h1, h2⟩ := hs
    simp only [List.mem_cons, not_or] at h1 h2
    rw [List.cons_append, formatFrom, if_neg (Ne.symm h1.1), if_neg (Ne.symm h2.1), ih _ ⟨h1.2, h2.2⟩]
    simp

theorem format_field (spec u : List Char) (hs : Plain spec) (args : List Arg) :
    formatFrom show_ .text ((Piece.field spec).written ++ u) args =
      match args with
      | [] => none
      | a :: args => (show_ spec a).bind fun x => (formatFrom show_ .text u args).map (x ++ ·) := by
  cases spec with
  | nil =>
    show formatFrom show_ .text ('{' :: '}' :: u) args = _
    rw [formatFrom, if_pos rfl, formatFrom, if_neg (by decide), if_pos rfl]
    cases args <;> rfl
  | cons c spec =>
    have e : (Piece.field (c :: spec)).written ++ u = '{' :: ':' :: ((c :: spec) ++ '}' :: u) := by simp [Piece.written]
    rw [e, formatFrom, if_pos rfl, formatFrom, if_neg (by decide), if_neg (by decide), format_spec _ _ _ _ hs, formatFrom,
      if_neg (by decide), if_pos rfl]
    have e2 : specOf ((c :: spec).reverse ++ [':']).reverse = some (c :: spec) := by simp [specOf]
    rw [e2]
    cases args <;> rfl

/-- C148: a prototype of plain text, escaped braces and fields is formatted to the text its parts stand for, with the arguments in the
places of the fields as they are; it raises exactly when there is none (an argument is missing or cannot be formatted as asked). -/
theorem C148_sub (ps : List Piece) (hok : ∀ p ∈ ps, p.Ok) (args : List Arg) (y : List Char) :
    sub show_ (proto ps) args = some y ↔ Shown show_ ps args y := by
  unfold sub
  induction ps generalizing args y with
  | nil =>
    show some [] = some y ↔ _
    constructor
    · intro h; rw [← Option.some.inj h]; exact .nil _
    · intro h; cases h; rfl
  | cons p ps ih =>
    have hps : ∀ p ∈ ps, p.Ok := fun q hq => hok q (by simp [hq])
    have hp := hok p (by simp)
    have e : proto (p :: ps) = p.written ++ proto ps := by simp [proto]
    rw [e]
    cases p with
    | plain t =>
      show formatFrom show_ .text (t ++ proto ps) args = _ ↔ _
      rw [format_plain show_ t _ hp, Option.map_eq_some_iff]
      constructor
      · rintro ⟨z, h, rfl⟩; exact .plain _ _ _ _ ((ih hps _ _).1 h)
      · intro h; cases h with | plain _ _ _ z h => exact ⟨z, (ih hps _ _).2 h, rfl⟩
    | openBrace =>
      show formatFrom show_ .text ('{' :: '{' :: proto ps) args = _ ↔ _
      rw [formatFrom, if_pos rfl, formatFrom, if_pos rfl, Option.map_eq_some_iff]
      constructor
      · rintro ⟨z, h, rfl⟩; exact .openBrace _ _ _ ((ih hps _ _).1 h)
      · intro h; cases h with | openBrace _ _ z h => exact ⟨z, (ih hps _ _).2 h, rfl⟩
    | closeBrace =>
      show formatFrom show_ .text ('}' :: '}' :: proto ps) args = _ ↔ _
      rw [formatFrom, if_neg (by decide), if_pos rfl, formatFrom, if_pos rfl, Option.map_eq_some_iff]
      constructor
      · rintro ⟨z, h, rfl⟩; exact .closeBrace _ _ _ ((ih hps _ _).1 h)
      · intro h; cases h with | closeBrace _ _ z h => exact ⟨z, (ih hps _ _).2 h, rfl⟩
    | field spec =>
      rw [format_field show_ spec _ hp]
      cases args with
      | nil =>
        constructor
        · intro h; cases h
        · intro h; cases h
      | cons a args =>
        simp only [Option.bind_eq_some_iff, Option.map_eq_some_iff]
        constructor
        · rintro ⟨x, hx, z, h, rfl⟩; exact .field _ _ _ _ _ _ hx ((ih hps _ _).1 h)
        · intro h; cases h with | field _ x _ _ _ z hx h => exact ⟨x, hx, z, (ih hps _ _).2 h, rfl⟩

/-- C148: with fewer arguments than fields there is no text: `sub` raises. -/
theorem C148_too_few (ps : List Piece) (hok : ∀ p ∈ ps, p.Ok) (args : List Arg) (h : args.length < fields ps) :
    sub show_ (proto ps) args = none := by
  rw [Option.eq_none_iff_forall_ne_some]
  intro y hy
  rw [C148_sub show_ ps hok] at hy
  have : fields ps ≤ args.length := by
    clear h hok
    induction hy with
    | nil => exact Nat.zero_le _
    | plain _ _ _ _ _ ih => exact ih
    | openBrace _ _ _ _ ih => exact ih
    | closeBrace _ _ _ _ ih => exact ih
    | field _ _ _ _ _ _ _ _ ih => simp only [fields, List.length_cons]; omega
  omega

/-! ## Counting fields -/

theorem count_plain (b : Bool) (t u : List Char) (ht : Plain t) : countFrom b (t ++ u) = countFrom b u := by
  induction t with
  | nil => rfl
  | cons c t ih =>
    obtain ⟨h1, h2⟩ := ht
    simp only [List.mem_cons, not_or] at h1 h2
    rw [List.cons_append, countFrom, if_neg (Ne.symm h1.1), if_neg (Ne.symm h2.1), ih ⟨h1.2, h2.2⟩]

theorem count_close (b : Bool) (u : List Char) : countFrom b ('}' :: u) = (if b then 1 else 0) + countFrom false u := by
  rw [countFrom, if_neg (by decide), if_pos rfl]

theorem count_open (b : Bool) (u : List Char) : countFrom b ('{' :: u) = countFrom true u := by
  rw [countFrom, if_pos rfl]

theorem count_field (b : Bool) (spec u : List Char) (hs : Plain spec) :
    countFrom b ((Piece.field spec).written ++ u) = 1 + countFrom false u := by
  cases spec with
  | nil =>
    show countFrom b ('{' :: '}' :: u) = _
    rw [count_open, count_close]; rfl
  | cons c spec =>
    have e : (Piece.field (c :: spec)).written ++ u = '{' :: ((':' :: c :: spec) ++ '}' :: u) := by simp [Piece.written]
    have hp : Plain (':' :: c :: spec) := by
      obtain ⟨h1, h2⟩ := hs
      exact ⟨by simpa using h1, by simpa using h2⟩
    rw [e, count_open, count_plain _ _ _ hp, count_close]; rfl

/-- The count is at least the number of fields; each escaped opening brace with an escaped closing one right behind it adds one. -/
theorem count_ge (ps : List Piece) (hok : ∀ p ∈ ps, p.Ok) (b : Bool) : fields ps ≤ countFrom b (proto ps) := by
  induction ps generalizing b with
  | nil => exact Nat.zero_le _
  | cons p ps ih =>
    have hps : ∀ p ∈ ps, p.Ok := fun q hq => hok q (by simp [hq])
    have hp := hok p (by simp)
    have e : proto (p :: ps) = p.written ++ proto ps := by simp [proto]
    rw [e]
    cases p with
    | plain t => rw [show (Piece.plain t).written = t from rfl, count_plain _ _ _ hp]; exact ih hps b
    | openBrace =>
      show _ ≤ countFrom b ('{' :: '{' :: proto ps)
      rw [count_open, count_open]; exact ih hps true
    | closeBrace =>
      show _ ≤ countFrom b ('}' :: '}' :: proto ps)
      rw [count_close, count_close]
      have := ih hps false
      simp only [fields, Bool.false_eq_true, if_false]
      split_ifs <;> omega
    | field spec =>
      rw [count_field _ _ _ hp]
      have := ih hps false
      simp only [fields]; omega

/-- Without escaped braces the count is the number of fields. -/
theorem C148_counted (ps : List Piece) (hok : ∀ p ∈ ps, p.Ok) (hesc : ∀ p ∈ ps, p ≠ .openBrace ∧ p ≠ .closeBrace) :
    braceCount (proto ps) = fields ps := by
  unfold braceCount
  generalize hb : false = b
  have key : ∀ b, countFrom b (proto ps) = fields ps ∨ b = true := by
    intro b
    cases b with
    | true => exact Or.inr rfl
    | false =>
      left
      clear hb
      induction ps with
      | nil => rfl
      | cons p ps ih =>
        have hps : ∀ p ∈ ps, p.Ok := fun q hq => hok q (by simp [hq])
        have hp := hok p (by simp)
        have he := hesc p (by simp)
        have e : proto (p :: ps) = p.written ++ proto ps := by simp [proto]
        have ih := ih hps (fun q hq => hesc q (by simp [hq]))
        rw [e]
        cases p with
        | plain t => rw [show (Piece.plain t).written = t from rfl, count_plain _ _ _ hp]; exact ih
        | openBrace => exact absurd rfl he.1
        | closeBrace => exact absurd rfl he.2
        | field spec => rw [count_field _ _ _ hp, ih]; simp only [fields]; omega
  rcases key b with h | h
  · exact h
  · rw [← hb] at h; cases h

/-! ## Messages -/

/-- C148: a message whose prototype has no escaped braces is one line: what its prefixes stand for, the text with the arguments in place
of the fields, and what its suffixes stand for (the last one first). The arguments may be any texts, such as a single hyphen or texts
with braces. -/
theorem C148_message_partial (s : St) (pre post : List (Arg × List Char)) (ps : List Piece) (args : List Arg) (y : List Char)
    (hpre : ∀ p ∈ pre, Pre p.1 p.2) (hpost : ∀ p ∈ post, Post p.1 p.2) (h2 : pre.length ≤ 2)
    (h01 : ∀ a x, pre.head? = some (a, x) → a ≠ .int 0 ∧ a ≠ .int 1 ∧ a ≠ .bool true ∧ a ≠ .bool false)
    (hok : ∀ p ∈ ps, p.Ok) (hesc : ∀ p ∈ ps, p ≠ .openBrace ∧ p ≠ .closeBrace) (ht : proto ps ≠ ['-'])
    (hargs : args.length = fields ps) (hy : Shown show_ ps args y) (hlen : pre ≠ [] ∨ args ≠ [] ∨ post ≠ []) :
    msg show_ s (pre.map Prod.fst ++ .str (proto ps) :: args ++ post.map Prod.fst) =
      some (writeLine s (pre.flatMap Prod.snd ++ y ++ post.reverse.flatMap Prod.snd)) := by
  unfold msg
  refine Messenger.C56_layout braceCount (sub show_) s pre post (proto ps) y args hpre hpost h2 (fun x h => (h01 _ x h).1 rfl)
    (fun x h => (h01 _ x h).2.1 rfl) (fun b x h => ?_) ht ?_ ?_ hlen
  · cases b
    · exact (h01 _ x h).2.2.2 rfl
    · exact (h01 _ x h).2.2.1 rfl
  · rw [hargs, C148_counted ps hok hesc]
  · exact (C148_sub show_ ps hok args y).2 hy

theorem call_no_suffix (s : St) (t : List Char) (args : List Arg) (ht : t ≠ ['-']) (ha : args ≠ []) (hl : args.length ≤ braceCount t) :
    msg show_ s (.str t :: args) = (sub show_ t args).map (writeLine s) := by
  have hp : Messenger.takePrefix 2 (.str t :: args) = some ([], .str t :: args) := by
    simp [Messenger.takePrefix, Messenger.prefixOf, ht]
  have hs : Messenger.takeSuffix (braceCount t) (args.reverse ++ [.str t]) = ([], args.reverse ++ [.str t]) := by
    generalize hr : args.reverse ++ [.str t] = r
    have hlr : r.length = args.length + 1 := by rw [← hr]; simp
    cases r with
    | nil => simp at hlr
    | cons a r => rw [Messenger.takeSuffix, if_neg (by omega)]
  obtain ⟨a, args', rfl⟩ := List.exists_cons_of_ne_nil ha
  have : msg show_ s (.str t :: a :: args') = Messenger.emit braceCount (sub show_) s (.str t :: a :: args') := rfl
  rw [this, Messenger.emit]
  · rw [hp]
    dsimp only
    rw [hs]
    simp only [List.reverse_append, List.reverse_reverse, List.reverse_cons, List.reverse_nil, List.nil_append, List.singleton_append]
    simp
  all_goals simp

/-- C148 fails with escaped braces: a pair of them is counted as a field, so that the row of hyphens (or the blank line) asked for
after the text is taken for an argument without a field, and is not written. -/
theorem C148_row_lost (s : St) (ps qs : List Piece) (t : List Char) (ht : Plain t) (args : List Arg) (y : List Char) (a : Arg)
    (x : List Char) (_ : Post a x) (hps : ∀ p ∈ ps, p.Ok) (hqs : ∀ p ∈ qs, p.Ok)
    (hargs : args.length = fields ps + fields qs)
    (hy : Shown show_ (ps ++ .openBrace :: .plain t :: .closeBrace :: qs) args y) :
    msg show_ s (.str (proto (ps ++ .openBrace :: .plain t :: .closeBrace :: qs)) :: args ++ [a]) = some (writeLine s y) := by
  have hok : ∀ p ∈ ps ++ Piece.openBrace :: .plain t :: .closeBrace :: qs, p.Ok := by
    intro p hp
    simp only [List.mem_append, List.mem_cons] at hp
    rcases hp with h | rfl | rfl | rfl | h
    · exact hps p h
    · trivial
    · exact ht
    · trivial
    · exact hqs p h
  have hcount : args.length + 1 ≤ braceCount (proto (ps ++ .openBrace :: .plain t :: .closeBrace :: qs)) := by
    rw [hargs]
    unfold braceCount
    have gen : ∀ b, fields ps + fields qs + 1 ≤ countFrom b (proto (ps ++ .openBrace :: .plain t :: .closeBrace :: qs)) := by
      clear hy hok hargs
      induction ps with
      | nil =>
        intro b
        have e : proto ([] ++ Piece.openBrace :: .plain t :: .closeBrace :: qs) = '{' :: '{' :: (t ++ '}' :: '}' :: proto qs) := by
          simp [proto, Piece.written]
        rw [e, count_open, count_open, count_plain _ _ _ ht, count_close, count_close]
        have := count_ge qs hqs false
        simp only [fields, Bool.false_eq_true, if_false, if_true]
        omega
      | cons p ps ih =>
        intro b
        have ih := ih (fun q hq => hps q (by simp [hq]))
        have hp := hps p (by simp)
        generalize hr : ps ++ Piece.openBrace :: .plain t :: .closeBrace :: qs = r at ih
        have e : proto (p :: ps ++ Piece.openBrace :: .plain t :: .closeBrace :: qs) = p.written ++ proto r := by
          rw [List.cons_append, hr]; simp [proto]
        rw [e]
        cases p with
        | plain t => rw [show (Piece.plain t).written = t from rfl, count_plain _ _ _ hp]; exact ih b
        | openBrace =>
          show _ ≤ countFrom b ('{' :: '{' :: proto r)
          rw [count_open, count_open]; exact ih true
        | closeBrace =>
          show _ ≤ countFrom b ('}' :: '}' :: proto r)
          rw [count_close, count_close]
          have := ih false
          simp only [fields, Bool.false_eq_true, if_false] at *
          split_ifs <;> omega
        | field spec =>
          rw [count_field _ _ _ hp]
          have := ih false
          simp only [fields]; omega
    exact gen false
  rw [List.cons_append, call_no_suffix show_ s _ (args ++ [a]) ?_ (by simp) (by simpa using hcount)]
  · have : Shown show_ (ps ++ .openBrace :: .plain t :: .closeBrace :: qs) (args ++ [a]) y := by
      revert hy
      generalize ps ++ Piece.openBrace :: .plain t :: .closeBrace :: qs = r
      intro hy
      clear hargs hcount
      induction hy with
      | nil => exact .nil _
      | plain _ _ _ _ _ ih => exact .plain _ _ _ _ ih
      | openBrace _ _ _ _ ih => exact .openBrace _ _ _ ih
      | closeBrace _ _ _ _ ih => exact .closeBrace _ _ _ ih
      | field _ _ _ _ _ _ hx _ ih => exact .field _ _ _ _ _ _ hx ih
    rw [(C148_sub show_ _ hok _ y).2 this]
    rfl
  · intro hc
    have : '{' ∈ proto (ps ++ Piece.openBrace :: .plain t :: .closeBrace :: qs) := by simp [proto, Piece.written]
    rw [hc] at this
    simp at this

/-- Text with a brace that is neither escaped nor part of a field. -/
inductive Stray : List Char → Prop
  | close (a b : List Char) : Plain a → b.head? ≠ some '}' → Stray (a ++ '}' :: b)
  | opened (a b : List Char) : Plain a → Plain b → Stray (a ++ '{' :: b)

theorem sub_stray (t : List Char) (h : Stray t) (args : List Arg) : sub show_ t args = none := by
  unfold sub
  cases h with
  | close a b ha hb =>
    rw [format_plain show_ a _ ha, formatFrom, if_neg (by decide), if_pos rfl]
    cases b with
    | nil => rfl
    | cons c b =>
      rw [formatFrom, if_neg (by simpa using hb)]
      rfl
  | opened a b ha hb =>
    rw [format_plain show_ a _ ha, formatFrom, if_pos rfl]
    have field_none : ∀ (b r : List Char), Plain b → formatFrom show_ (.field r) b args = none := by
      intro b
      induction b with
      | nil => intros; rfl
      | cons c b ih =>
        intro r hb
        obtain ⟨h1, h2⟩ := hb
        simp only [List.mem_cons, not_or] at h1 h2
        rw [formatFrom, if_neg (Ne.symm h1.1), if_neg (Ne.symm h2.1)]
        exact ih _ ⟨h1.2, h2.2⟩
    cases b with
    | nil => rfl
    | cons c b =>
      obtain ⟨h1, h2⟩ := hb
      simp only [List.mem_cons, not_or] at h1 h2
      rw [formatFrom, if_neg (Ne.symm h1.1), if_neg (Ne.symm h2.1), field_none _ _ ⟨h1.2, h2.2⟩]
      rfl

/-- C148: a text without arguments, alone or with `0` before it, is written as it is, whatever braces are in it. With `-1` before it,
which is said to be the same, it is a prototype: a stray brace in it makes the call raise and nothing is written. -/
theorem C148_stray (s : St) (t : List Char) (ht : 2 ≤ t.length) :
    msg show_ s [.str t] = some (writeLine s t) ∧
    msg show_ s [.int 0, .str t] = some (writeLine (writeLine s []) t) ∧
    (Stray t → msg show_ s [.int (-1), .str t] = none) := by
  refine ⟨(Messenger.C56_single_text braceCount (sub show_) s t).1 ht, ?_, fun h => ?_⟩
  · match t, ht with
    | a :: b :: r, _ => rfl
  · have h1 : t ≠ ['-'] := by rintro rfl; simp at ht
    have hp : Messenger.takePrefix 2 [.int (-1), .str t] = some (['\n'], [.str t]) := by
      simp [Messenger.takePrefix, Messenger.prefixOf, h1]
    have hs : Messenger.takeSuffix (braceCount t) [.str t] = ([], [.str t]) := by
      simp [Messenger.takeSuffix]
    have e : msg show_ s [.int (-1), .str t] = Messenger.emit braceCount (sub show_) s [.int (-1), .str t] := rfl
    rw [e, Messenger.emit]
    · rw [hp]
      dsimp only
      rw [List.reverse_nil, List.nil_append, hs]
      simp [sub_stray show_ t h]
    all_goals simp

namespace Demo

/-- Texts as they are; whole numbers (up to nine here) in decimal. -/
def plainShow (_ : List Char) : Arg → Option (List Char)
  | .str t => some t
  | .int n => some [Nat.digitChar n.toNat]
  | _ => none

/-- The prototype in ade/scripts/lgg.py:351: the number 5 gives the prototype `{:0.5g}`. -/
def lggProto : List Piece := [.openBrace, .plain ":0.".toList, .field "d".toList, .plain "g".toList, .closeBrace]

example : proto lggProto = "{{:0.{:d}g}}".toList := by decide +kernel

theorem lgg_ok : ∀ p ∈ lggProto, p.Ok := by
  intro p hp
  simp only [lggProto, List.mem_cons, List.not_mem_nil, or_false] at hp
  rcases hp with rfl | rfl | rfl | rfl | rfl
  · trivial
  · exact (by decide : Plain ":0.".toList)
  · exact (by decide : Plain "d".toList)
  · exact (by decide : Plain "g".toList)
  · trivial

example : Shown plainShow lggProto [.int 5] "{:0.5g}".toList :=
  (C148_sub plainShow lggProto lgg_ok [.int 5] _).1 (by decide +kernel)
example := C148_too_few plainShow lggProto lgg_ok [] (by decide)

/-- A message with two fields, as in ade/report.py:251, whose arguments have braces and a hyphen. -/
def arrow : List Piece := [.field [], .plain "--->".toList, .field [], .plain "\n".toList]

theorem arrow_ok : ∀ p ∈ arrow, p.Ok := by
  intro p hp
  simp only [arrow, List.mem_cons, List.not_mem_nil, or_false] at hp
  rcases hp with rfl | rfl | rfl | rfl
  · exact (by decide : Plain [])
  · exact (by decide : Plain "--->".toList)
  · exact (by decide : Plain [])
  · exact (by decide : Plain "\n".toList)

theorem arrow_esc : ∀ p ∈ arrow, p ≠ .openBrace ∧ p ≠ .closeBrace := by decide

example := C148_counted arrow arrow_ok arrow_esc

theorem arrow_shown : Shown plainShow arrow [.str "{a}".toList, .str ['-']] "{a}--->-\n".toList :=
  (C148_sub plainShow arrow arrow_ok _ _).1 (by decide +kernel)

example (s : St) : msg plainShow s [.int (-1), .str (proto arrow), .str "{a}".toList, .str ['-'], .str ['-']] =
    some (writeLine s ('\n' :: "{a}--->-\n".toList ++ '\n' :: row)) := by
  have := C148_message_partial plainShow s [(.int (-1), ['\n'])] [(.str ['-'], '\n' :: row)] arrow [.str "{a}".toList, .str ['-']]
    "{a}--->-\n".toList (by intro p hp; simp only [List.mem_singleton] at hp; subst hp; exact .blank (-1) (by norm_num))
    (by intro p hp; simp only [List.mem_singleton] at hp; subst hp; exact .hyphens) (by decide)
    (by intro a x h; simp only [List.head?_cons, Option.some.injEq, Prod.mk.injEq] at h; obtain ⟨rfl, -⟩ := h; decide)
    arrow_ok arrow_esc (by decide) rfl arrow_shown (by simp)
  simpa using this

/-- `msg("A set {{}} of {}", 5, '-')`: the row of hyphens is not written. -/
example (s : St) : msg plainShow s [.str "A set {{}} of {}".toList, .int 5, .str ['-']] = some (writeLine s "A set {} of 5".toList) :=
  C148_row_lost plainShow s [.plain "A set ".toList] [.plain " of ".toList, .field []] [] (by decide) [.int 5] _ (.str ['-'])
    ('\n' :: row) .hyphens
    (by intro p hp; simp only [List.mem_singleton] at hp; subst hp; exact (by decide : Plain "A set ".toList))
    (by intro p hp; simp only [List.mem_cons, List.not_mem_nil, or_false] at hp; rcases hp with rfl | rfl
        · exact (by decide : Plain " of ".toList)
        · exact (by decide : Plain []))
    rfl
    (.plain _ _ _ _ (.openBrace _ _ _ (.plain [] _ _ _ (.closeBrace _ _ _ (.plain " of ".toList _ _ _
      (.field [] ['5'] _ _ _ _ rfl (.nil _)))))))

example (s : St) : msg plainShow s [.int (-1), .str "f(x) = {x".toList] = none :=
  (C148_stray plainShow s _ (by decide)).2.2 (.opened "f(x) = ".toList "x".toList (by decide) (by decide))
example (s : St) : msg plainShow s [.int (-1), .str "a}b".toList] = none :=
  (C148_stray plainShow s _ (by decide)).2.2 (.close "a".toList "b".toList (by decide) (by decide))

end Demo

end MessageText
end Ade
