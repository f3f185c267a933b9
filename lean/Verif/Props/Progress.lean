import Verif.Model.Progress
import Mathlib.Data.List.Induction

/-!
# Property C87: lines of progress characters
-/

set_option autoImplicit false

namespace Ade
namespace Progress

/-! ## Specification: the file as a sequence of lines, each of one kind -/

/-- A finished line: a line of text, or a line of progress characters. -/
inductive Line where
  | text (t : List Char)
  | progress (cs : List Char)

/-- What is in the line. -/
def Line.content : Line → List Char
  | .text t => t
  | .progress cs => cs

/-- The text of a line of text. -/
def Line.asText : Line → Option (List Char)
  | .text t => some t
  | .progress _ => none

/-- The progress characters of a line. -/
def Line.chars : Line → List Char
  | .text _ => []
  | .progress cs => cs

/-- The texts that were to be written. -/
def Op.asText : Op → Option (List Char)
  | .line t => some t
  | _ => none

/-- The progress characters that were to be written. -/
def Op.asChar : Op → Option Char
  | .char c => some c
  | _ => none

/-- The file with the given finished lines and an unfinished line of progress characters. -/
def render (lines : List Line) (unfinished : List Char) : List Char :=
  (lines.map fun l => l.content ++ ['\n']).flatten ++ unfinished

/-- What is true after any operations. -/
structure Laid (n : ℕ) (f : ℕ) (ops : List Op) (s : St) (lines : List Line) (last : List Char) : Prop where
  fh : s.msg.fh = some f
  ok : s.msg.broken f = false ∧ s.msg.closed f = false
  out : s.msg.out f = render lines last
  texts : lines.filterMap Line.asText = ops.filterMap Op.asText
  chars : (lines.map Line.chars).flatten ++ last = ops.filterMap Op.asChar
  short : ∀ l ∈ lines, l.chars.length ≤ n
  lastShort : last.length ≤ s.syms
  syms : s.syms < n
  clean : s.msg.newlineNeeded = false → last = []

theorem step_laid {n : ℕ} (hn : 0 < n) (f : ℕ) (ops : List Op) (s : St) (lines : List Line) (last : List Char)
    (h : Laid n f ops s lines last) (o : Op) :
    ∃ lines' last', Laid n f (ops ++ [o]) (step n s o) lines' last' := by
  have hfh := h.fh
  obtain ⟨hb, hc⟩ := h.ok
  have hls := h.lastShort
  have hsy := h.syms
  have hout := h.out
  have htx := h.texts
  have hch := h.chars
  have wc : ∀ c, Messenger.writeChar s.msg c =
      { Messenger.write s.msg f [c] with newlineNeeded := true } := by
    intro c; simp [Messenger.writeChar, hfh, hb, hc]
  have wc2 : ∀ c d, Messenger.writeChar (Messenger.writeChar s.msg c) d =
      { Messenger.write (Messenger.write s.msg f [c]) f [d] with newlineNeeded := true } := by
    intro c d; rw [wc]; simp [Messenger.writeChar, Messenger.write, hfh, hb, hc]
  cases o with
  | char c =>
    simp only [step, progressChar]
    by_cases hfull : (s.syms : ℤ) + 1 > (n : ℤ) - 1
    · rw [if_pos hfull, wc2]
      refine ⟨lines ++ [.progress (last ++ [c])], [], ⟨hfh, ⟨hb, hc⟩, ?_, ?_, ?_, ?_, ?_, hn, fun _ => rfl⟩⟩
      · simp [Messenger.write, hout, render, Line.content]
      · simpa [Line.asText, List.filterMap_cons, Op.asText] using htx
      · simp [Line.chars, Op.asChar, ← hch]
      · intro l hl
        rcases List.mem_append.1 hl with hl | hl
        · exact h.short l hl
        · simp at hl; subst hl; simp [Line.chars]; omega
      · simp
    · rw [if_neg hfull, wc]
      refine ⟨lines, last ++ [c], ⟨hfh, ⟨hb, hc⟩, ?_, ?_, ?_, h.short, ?_, ?_, ?_⟩⟩
      · simp [Messenger.write, hout, render]
      · simpa [List.filterMap_cons, Op.asText] using htx
      · simp [Op.asChar, ← hch]
      · simp; omega
      · show s.syms + 1 < n; omega
      · intro hx; simp at hx
  | fresh =>
    simp only [step, progressChar]
    by_cases hz : s.syms ≠ 0
    · rw [if_pos hz, wc]
      refine ⟨lines ++ [.progress last], [], ⟨hfh, ⟨hb, hc⟩, ?_, ?_, ?_, ?_, ?_, hn, fun _ => rfl⟩⟩
      · simp [Messenger.write, hout, render, Line.content]
      · simpa [Line.asText, List.filterMap_cons, Op.asText] using htx
      · simpa [Line.chars, List.filterMap_cons, Op.asChar] using hch
      · intro l hl
        rcases List.mem_append.1 hl with hl | hl
        · exact h.short l hl
        · simp at hl; subst hl; simp [Line.chars]; omega
      · simp
    · rw [if_neg hz]
      have hz' : s.syms = 0 := by simpa using hz
      refine ⟨lines, last, ⟨hfh, ⟨hb, hc⟩, hout, ?_, ?_, h.short, ?_, hn, h.clean⟩⟩
      · simpa [List.filterMap_cons, Op.asText] using htx
      · simpa [List.filterMap_cons, Op.asChar] using hch
      · rw [hz'] at hls; exact hls
  | line t =>
    simp only [step, Messenger.writeLine, hfh]
    simp only [hb, hc, Bool.or_self, Bool.false_eq_true, if_false]
    by_cases hnl : s.msg.newlineNeeded = true
    · simp only [hnl, if_true]
      refine ⟨lines ++ [.progress last, .text t], [], ⟨rfl, ⟨hb, hc⟩, ?_, ?_, ?_, ?_, ?_, hsy, fun _ => rfl⟩⟩
      · simp [Messenger.write, hout, render, Line.content]
      · simp [Line.asText, List.filterMap_cons, Op.asText, ← htx]
      · simpa [Line.chars, List.filterMap_cons, Op.asChar] using hch
      · intro l hl
        rcases List.mem_append.1 hl with hl | hl
        · exact h.short l hl
        · simp at hl
          rcases hl with rfl | rfl <;> simp [Line.chars]; omega
      · simp
    · have hlast := h.clean (by simpa using hnl)
      subst hlast
      simp only [hnl, if_false, Bool.false_eq_true]
      refine ⟨lines ++ [.text t], [], ⟨rfl, ⟨hb, hc⟩, ?_, ?_, ?_, ?_, ?_, hsy, fun _ => rfl⟩⟩
      · simp [Messenger.write, hout, render, Line.content]
      · simp [Line.asText, Op.asText, ← htx]
      · simpa [Line.chars, List.filterMap_cons, Op.asChar] using hch
      · intro l hl
        rcases List.mem_append.1 hl with hl | hl
        · exact h.short l hl
        · simp at hl; subst hl; simp [Line.chars]
      · simp

theorem laid (n : ℕ) (hn : 0 < n) (f : ℕ) (ops : List Op) :
    ∃ lines last, Laid n f ops (ops.foldl (step n) (start f)) lines last := by
  induction ops using List.reverseRecOn with
  | nil => exact ⟨[], [], ⟨rfl, ⟨rfl, rfl⟩, rfl, rfl, rfl, by simp, Nat.le_refl _, hn, fun _ => rfl⟩⟩
  | append_singleton ops o ih =>
    obtain ⟨lines, last, h⟩ := ih
    rw [List.foldl_append, List.foldl_cons, List.foldl_nil]
    exact step_laid hn f ops _ lines last h o

/-- C87: however progress characters, line breaks and lines of text follow each other, the file consists of lines that
are either the lines of text, each on its own, all of them and in order, or lines of at most `n` progress
characters, all of them and in order, ending with an unfinished line of fewer than `n` progress characters. -/
theorem C87_lines (n : ℕ) (hn : 0 < n) (f : ℕ) (ops : List Op) :
    ∃ (lines : List Line) (last : List Char),
      output n f ops = render lines last ∧
      lines.filterMap Line.asText = ops.filterMap Op.asText ∧
      (lines.map Line.chars).flatten ++ last = ops.filterMap Op.asChar ∧
      (∀ l ∈ lines, l.chars.length ≤ n) ∧ last.length < n := by
  obtain ⟨lines, last, h⟩ := laid n hn f ops
  exact ⟨lines, last, h.out, h.texts, h.chars, h.short, lt_of_le_of_lt h.lastShort h.syms⟩

theorem render_eq (lines : List Line) (last : List Char) :
    render lines last = ['\n'].intercalate (lines.map Line.content ++ [last]) := by
  induction lines with
  | nil => simp [render]
  | cons l ls ih =>
    have : render (l :: ls) last = l.content ++ ['\n'] ++ render ls last := by simp [render]
    rw [this, ih]
    cases ls <;> simp [List.intercalate, List.intersperse]

/-- C87: so, when neither progress characters nor texts contain newlines, every line of the file is one of the texts or
has at most `n` characters. -/
theorem C87_line_length (n : ℕ) (hn : 0 < n) (f : ℕ) (ops : List Op)
    (hc : ∀ c, Op.char c ∈ ops → c ≠ '\n') (ht : ∀ t, Op.line t ∈ ops → '\n' ∉ t) :
    ∀ l ∈ (output n f ops).splitOn '\n', Op.line l ∈ ops ∨ l.length ≤ n := by
  obtain ⟨lines, last, h1, h2, h3, h4, h5⟩ := C87_lines n hn f ops
  have hchars : ∀ c ∈ (lines.map Line.chars).flatten ++ last, c ≠ '\n' := by
    intro c hcm
    rw [h3] at hcm
    obtain ⟨o, ho, hoc⟩ := List.mem_filterMap.1 hcm
    cases o <;> simp [Op.asChar] at hoc
    subst hoc; exact hc _ ho
  have htexts : ∀ t, Line.text t ∈ lines → Op.line t ∈ ops := by
    intro t hl
    have : t ∈ lines.filterMap Line.asText := List.mem_filterMap.2 ⟨_, hl, rfl⟩
    rw [h2] at this
    obtain ⟨o, ho, hot⟩ := List.mem_filterMap.1 this
    cases o <;> simp [Op.asText] at hot
    subst hot; exact ho
  intro l hl
  rw [h1, render_eq, List.splitOn_intercalate] at hl
  · rcases List.mem_append.1 hl with hl | hl
    · obtain ⟨x, hx, rfl⟩ := List.mem_map.1 hl
      cases x with
      | text t => exact .inl (htexts t hx)
      | progress cs => exact .inr (h4 _ hx)
    · simp at hl; subst hl; exact .inr h5.le
  · intro l' hl'
    rcases List.mem_append.1 hl' with hl' | hl'
    · obtain ⟨x, hx, rfl⟩ := List.mem_map.1 hl'
      cases x with
      | text t => exact ht t (htexts t hx)
      | progress cs =>
        intro hm
        exact hchars '\n' (List.mem_append.2 (.inl (List.mem_flatten.2 ⟨cs, List.mem_map.2 ⟨_, hx, rfl⟩, hm⟩))) rfl
    · simp at hl'; subst hl'
      intro hm
      exact hchars '\n' (List.mem_append.2 (.inr hm)) rfl
  · simp

theorem only_chars (n : ℕ) (hn : 0 < n) (f : ℕ) (cs : List Char) :
    let s := (cs.map Op.char).foldl (step n) (start f)
    s.msg.fh = some f ∧ s.msg.broken f = false ∧ s.msg.closed f = false ∧ s.syms = cs.length % n ∧
      s.msg.out f = (cs.zipIdx.map fun p => if (p.2 + 1) % n = 0 then [p.1, '\n'] else [p.1]).flatten := by
  induction cs using List.reverseRecOn with
  | nil => exact ⟨rfl, rfl, rfl, (Nat.zero_mod n).symm, rfl⟩
  | append_singleton cs c ih =>
    simp only [List.map_append, List.foldl_append, List.map_cons, List.map_nil, List.foldl_cons, List.foldl_nil]
    generalize (cs.map Op.char).foldl (step n) (start f) = s at ih ⊢
    obtain ⟨h1, h2, h3, h4, h5⟩ := ih
    have hlt : s.syms < n := by rw [h4]; exact Nat.mod_lt _ hn
    have hz : (cs ++ [c]).zipIdx = cs.zipIdx ++ [(c, cs.length)] := by simp [List.zipIdx_append]
    rw [hz]
    simp only [step, progressChar]
    by_cases hfull : (s.syms : ℤ) + 1 > (n : ℤ) - 1
    · have hm : (cs.length + 1) % n = 0 := by
        have : s.syms + 1 = n := by omega
        rw [Nat.add_mod, ← h4]
        rcases Nat.lt_or_ge 1 n with h | h
        · rw [Nat.mod_eq_of_lt h, this, Nat.mod_self]
        · have : n = 1 := by omega
          subst this; exact Nat.mod_one _
      rw [if_pos hfull]
      simp [Messenger.writeChar, Messenger.write, h1, h2, h3, h5, hm]
    · have hm : (cs.length + 1) % n = s.syms + 1 := by
        rw [Nat.add_mod, ← h4, Nat.mod_eq_of_lt (by omega : 1 < n), Nat.mod_eq_of_lt (by omega)]
      rw [if_neg hfull]
      simp [Messenger.writeChar, Messenger.write, h1, h2, h3, h5, hm]

/-- C87: while there are only progress characters, a new line is begun after every `n`-th character and nowhere else. -/
theorem C87_full_lines (n : ℕ) (hn : 0 < n) (f : ℕ) (cs : List Char) :
    output n f (cs.map .char) =
      (cs.zipIdx.map fun p => if (p.2 + 1) % n = 0 then [p.1, '\n'] else [p.1]).flatten :=
  (only_chars n hn f cs).2.2.2.2

example := C87_full_lines 3 (by decide) 1 "ab.cd..".toList

/-- C87: without progress characters, the messages are written as they are, one to a line. -/
theorem C87_only_messages (n f : ℕ) (ts : List (List Char)) :
    output n f (ts.map .line) = (ts.map fun t => t ++ ['\n']).flatten := by
  have gen : ∀ (ts : List (List Char)) (s : St), s.msg.fh = some f → s.msg.newlineNeeded = false →
      s.msg.broken f = false → s.msg.closed f = false →
      (((ts.map Op.line).foldl (step n) s).msg.out f) = s.msg.out f ++ (ts.map fun t => t ++ ['\n']).flatten := by
    intro ts
    induction ts with
    | nil => intro s _ _ _ _; simp
    | cons t ts ih =>
      intro s h1 h2 h3 h4
      rw [List.map_cons, List.foldl_cons]
      have hs : (step n s (.line t)).msg = Messenger.write { s.msg with lineWritten := true } f (t ++ ['\n']) := by
        simp [step, Messenger.writeLine, h1, h2, h3, h4]
      rw [ih _ (by rw [hs]; exact h1) (by rw [hs]; exact h2) (by rw [hs]; exact h3) (by rw [hs]; exact h4), hs]
      simp [Messenger.write]
  exact gen ts _ rfl rfl rfl rfl

/-- A small instance with lines of three characters; the message comes in the middle of a line. -/
example : String.ofList (output 3 7 [.char 'a', .char 'b', .char 'c', .char 'd', .line "text".toList, .char 'e',
    .char 'f', .char 'g', .fresh]) = "abc\nd\ntext\nef\ng\n" := by decide +kernel

example := C87_only_messages 3 7 ["one".toList, "two".toList]

example := C87_lines 3 (by decide) 7 [.char 'a', .char 'b', .char 'c', .char 'd', .line "text".toList]

example := C87_line_length 3 (by decide) 7 [.char 'a', .char 'b', .char 'c', .char 'd', .line "text".toList]
  (by intro c hc; simp at hc; rcases hc with rfl | rfl | rfl | rfl <;> decide)
  (by intro t ht; simp at ht; subst ht; decide)

end Progress
end Ade
