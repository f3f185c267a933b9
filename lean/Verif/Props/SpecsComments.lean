import Verif.Props.SpecsDoc

/-! C141: comments in specs files.  "Comments (lines beginning with '#', and trailing parts of a line after a
'#') and blank lines are ignored" (ade/specs.py:168-169): reading a file gives the same result as reading it
with the comments removed.  This holds for comments that start a word, except behind a name alone. -/

set_option autoImplicit false

namespace Ade
namespace Specs

/-! ### Specification -/

/-- The text before a comment is such that the comment is recognized: nothing but white space; a line of
hyphens; or at least two words and white space. -/
def Separate (a : Str) : Prop :=
  Blank a ∨ IsRule a ∨
    ∃ (w : Str) (ws : List Str) (gap : Str), ws ≠ [] ∧ HasWords a w ws ∧ gap ≠ [] ∧ Blank gap ∧ gap <:+ a

/-- The second line is the first one, or what is left of it when a comment has been removed. -/
def WithoutComment (line line' : Str) : Prop :=
  line' = line ∨ ∃ comment, line = line' ++ '#' :: comment ∧ Separate line'

/-! ### Proofs -/

/-- Every text is blank or consists of words. -/
theorem text_words (s : Str) : Blank s ∨ ∃ w ws, HasWords s w ws := by
  induction s with
  | nil => exact .inl (by simp [Blank])
  | cons c s ih =>
    by_cases hc : White c
    · rcases ih with ih | ⟨w, ws, lead, rest, trail, h, h1, h2, h3, h4, h5⟩
      · exact .inl (by
          intro x hx
          rcases List.mem_cons.1 hx with rfl | hx
          · exact hc
          · exact ih x hx)
      · refine .inr ⟨w, ws, c :: lead, rest, trail, by rw [h]; simp [lineText], ?_, h2, h3, h4, h5⟩
        intro x hx
        rcases List.mem_cons.1 hx with rfl | hx
        · exact hc
        · exact h1 x hx
    · rcases ih with ih | ⟨w, ws, lead, rest, trail, h, h1, h2, h3, h4, h5⟩
      · exact .inr ⟨[c], [], [], [], s, by simp [lineText], by simp [Blank], ih,
          ⟨by simp, by simpa using hc⟩, rfl, by simp⟩
      · cases lead with
        | nil =>
          refine .inr ⟨c :: w, ws, [], rest, trail, by rw [h]; simp [lineText], h1, h2, ⟨by simp, ?_⟩, h4, h5⟩
          intro x hx
          rcases List.mem_cons.1 hx with rfl | hx
          · exact hc
          · exact h3.2 x hx
        | cons g lead =>
          refine .inr ⟨[c], w :: ws, [], (g :: lead, w) :: rest, trail, by rw [h]; simp [lineText],
            by simp [Blank], h2, ⟨by simp, by simpa using hc⟩, by simp [h4], ?_⟩
          intro p hp
          rcases List.mem_cons.1 hp with rfl | hp
          · exact ⟨by simp, h1, h3⟩
          · exact h5 p hp

theorem blank_append {a b : Str} (ha : Blank a) (hb : Blank b) : Blank (a ++ b) := by
  intro c hc
  rcases List.mem_append.1 hc with h | h
  · exact ha c h
  · exact hb c h

/-- The words of a text followed by white space and a comment. -/
theorem words_comment (a w gap comment : Str) (ws : List Str) (h : HasWords a w ws) (hg : gap ≠ [])
    (hb : Blank gap) (hs : gap <:+ a) :
    ∃ c more, HasWords (a ++ '#' :: comment) w (ws ++ c :: more) ∧ c.head? = some '#' := by
  obtain ⟨lead, rest, trail, ha, h1, h2, h3, h4, h5⟩ := h
  -- the white space at the end is there, since words end with something else
  have ht : trail ≠ [] := by
    rintro rfl
    obtain ⟨x, hx, hx'⟩ := core_last w rest h3 h5
    have hlast : a.getLast? = some x := by
      rw [ha, lineText, List.append_nil, List.getLast?_append, hx]
      rfl
    obtain ⟨p, rfl⟩ := hs
    rw [List.getLast?_append] at hlast
    cases hgl : gap.getLast? with
    | none => exact hg (List.getLast?_eq_none_iff.1 hgl)
    | some y =>
      rw [hgl] at hlast
      simp only [Option.some_or, Option.some.injEq] at hlast
      have := hb y (List.mem_of_getLast? hgl)
      rw [hlast, white_iff, hx'] at this
      exact Bool.noConfusion this
  have hhash : ¬ White '#' := by decide
  rcases text_words ('#' :: comment) with hbl | ⟨c, more, lead', rest', trail', ha', g1, g2, g3, g4, g5⟩
  · exact absurd (hbl '#' (by simp)) hhash
  · have hl : lead' = [] := by
      cases lead' with
      | nil => rfl
      | cons x lead' =>
        exfalso
        simp only [lineText, List.cons_append, List.cons.injEq] at ha'
        exact hhash (ha'.1 ▸ g1 x (by simp))
    subst hl
    obtain ⟨y, t, rfl, -⟩ := solid_head c g3
    refine ⟨y :: t, more, ⟨lead, rest ++ (trail, y :: t) :: rest', trail', ?_, h1, g2, h3, by simp [h4, g4], ?_⟩,
      ?_⟩
    · rw [ha', ha]; simp [lineText]
    · intro p hp
      rcases List.mem_append.1 hp with hp | hp
      · exact h5 p hp
      · rcases List.mem_cons.1 hp with rfl | hp
        · exact ⟨ht, h2, g3⟩
        · exact g5 p hp
    · simp only [lineText, List.nil_append, List.cons_append, List.cons.injEq] at ha'
      simp [← ha'.1]

theorem parseValues_comment (ws : List Str) (c : Str) (more : List Str) (hc : c.head? = some '#') :
    parseValues (ws ++ c :: more) = parseValues ws := by
  have : (ws ++ c :: more).takeWhile (fun t => t.head? ≠ some '#') =
      ws.takeWhile fun t => t.head? ≠ some '#' := by
    induction ws with
    | nil => simp [hc]
    | cons x ws ih =>
      by_cases hx : x.head? = some '#'
      · simp [hx]
      · rw [List.cons_append, List.takeWhile_cons_of_pos (by simpa using hx),
          List.takeWhile_cons_of_pos (by simpa using hx), ih]
  unfold parseValues
  rw [this]

theorem entry_comment (st : St) (w : Str) (ws : List Str) (c : Str) (more : List Str) (hne : ws ≠ [])
    (hc : c.head? = some '#') : entry st w (ws ++ c :: more) = entry st w ws := by
  have ha : ∀ parts, assign st parts (ws ++ c :: more) = assign st parts ws := by
    intro parts
    match ws, hne with
    | x :: ws, _ =>
      simp only [assign, List.cons_append]
      split_ifs
      · rw [parseValues_comment _ _ _ hc]
      · rw [← List.cons_append, parseValues_comment _ _ _ hc]
  unfold entry
  simp only [ha]
  have h1 : ws ++ c :: more ≠ [] := by simp
  rw [if_neg h1, if_neg hne]

/-- A comment that starts a word is ignored, unless it stands behind a name alone. -/
theorem C141_line_partial (st : St) (a comment : Str) (h : Separate a) :
    readLine st (a ++ '#' :: comment) = readLine st a := by
  rcases h with h | ⟨lead, s, h, rfl⟩ | ⟨w, ws, gap, hne, hw, hg, hb, hs⟩
  · rw [readLine_skip st _ (.inr ⟨a, comment, h, rfl⟩), readLine_skip st a (.inl h)]
  · rw [readLine_rule st _ ⟨lead, s, h, rfl⟩,
      readLine_rule st _ ⟨lead, s ++ '#' :: comment, h, by simp⟩]
  · obtain ⟨c, more, hw', hc⟩ := words_comment a w gap comment ws hw hg hb hs
    by_cases h1 : w.head? = some '#'
    · -- the whole line is a comment
      obtain ⟨lead, rest, trail, ha, g1, -, g3, -, -⟩ := hw
      obtain ⟨y, t, rfl, -⟩ := solid_head w g3
      simp only [List.head?_cons, Option.some.injEq] at h1
      subst h1
      rw [readLine_skip st a (.inr ⟨lead, _, g1, by rw [ha, lineText]; simp; rfl⟩),
        readLine_skip st _ (.inr ⟨lead, _, g1, by rw [ha, lineText]; simp; rfl⟩)]
    · by_cases h2 : ['-', '-'] <+: w
      · obtain ⟨t, rfl⟩ := h2
        obtain ⟨lead, rest, trail, ha, g1, -, -, -, -⟩ := hw
        rw [readLine_rule st a ⟨lead, _, g1, by rw [ha, lineText]; simp; rfl⟩,
          readLine_rule st _ ⟨lead, _, g1, by rw [ha, lineText]; simp; rfl⟩]
      · rw [readLine_words st _ w _ hw' h1 h2, readLine_words st a w ws hw h1 h2,
          entry_comment st w ws c more hne hc]

/-- So with all such comments removed, any document is read as before, with the same result or the same
error. -/
theorem C141_document_partial (lines lines' : List Str) (h : List.Forall₂ WithoutComment lines lines') :
    read lines = read lines' := by
  have hf : ∀ st, lines.foldlM readLine st = lines'.foldlM readLine st := by
    induction h with
    | nil => intro st; rfl
    | @cons l l' _ _ hl _ ih =>
      intro st
      rw [List.foldlM_cons, List.foldlM_cons]
      have : readLine st l = readLine st l' := by
        rcases hl with rfl | ⟨comment, rfl, hs⟩
        · rfl
        · exact C141_line_partial st _ comment hs
      rw [this]
      congr 1
      funext st
      exact ih st
  unfold read
  rw [hf]
  cases h <;> simp

/-- The attribute with the given name, if the lines can be read. -/
def attrOf (lines : List Str) (name : Str) : Option Tree :=
  match read lines with
  | .ok st => lookup st.attrs (.name name)
  | .error _ => none

/-- What is read if it is a single value. -/
def scalarOf : Option Tree → Option Scalar
  | some (.leaf v) => some v
  | _ => none

/-- A comment right behind a value becomes part of it. -/
theorem C141_glued :
    scalarOf (attrOf ["x 5".toList] "x".toList) = some (.num 5) ∧
    scalarOf (attrOf ["x 5#mm".toList] "x".toList) = some (.str "5#mm".toList) := by decide +kernel

/-- Behind the name of a dict, a comment makes the definition of the dict an error. -/
theorem C141_behind_name :
    errOf ["p".toList, "--".toList, "k 1".toList, "--".toList] = none ∧
    errOf ["p # all of them".toList, "--".toList, "k 1".toList, "--".toList] = some .valueError := by
  decide +kernel

/-- Any name and any comment: the name is then an attribute with an empty list, not the name of a dict. -/
theorem C141_behind_any_name (st : St) (k : Key) (w a gap comment : Str) (hb : st.building = none)
    (hw : HasWords a w []) (hp : PathText [k] w) (hg : gap ≠ []) (hbl : Blank gap) (hs : gap <:+ a) :
    readLine st a = .ok { st with dictName := some k } ∧
      readLine st (a ++ '#' :: comment) = addAttr st k (.seq []) := by
  refine ⟨readLine_name st k a ⟨w, hw, hp⟩ hb, ?_⟩
  obtain ⟨c, more, hw', hc⟩ := words_comment a w gap comment [] hw hg hbl hs
  rw [List.nil_append] at hw'
  rw [readLine_words st _ w _ hw' hp.2.1 hp.2.2]
  have h1 : c ≠ ['='] := by rintro rfl; exact absurd hc (by decide)
  have h2 : parseValues (c :: more) = .seq [] := by
    have := parseValues_comment [] c more hc
    rw [List.nil_append] at this
    rw [this]; rfl
  simp [entry, parseName_path [k] w hp, hb, assign, h1, h2, store]

namespace Demo

example : Separate "x = 5 ".toList :=
  .inr (.inr ⟨"x".toList, ["=".toList, "5".toList], " ".toList, by simp,
    ⟨[], [([' '], "=".toList), ([' '], "5".toList)], [' '], by decide, by unfold Blank; decide, by unfold Blank; decide,
      by unfold Solid; decide, rfl, by unfold Solid Blank; decide⟩, by decide, by unfold Blank; decide,
    ⟨"x = 5".toList, by decide⟩⟩)

example : WithoutComment "--- # end".toList "--- ".toList :=
  .inr ⟨" end".toList, by decide, .inr (.inl ⟨[], "- ".toList, by simp [Blank], by decide⟩)⟩

example : scalarOf (attrOf ["x = 5 # mm".toList] "x".toList) = some (.num 5) := by decide +kernel

example : ∃ a gap : Str, HasWords a "p".toList [] ∧ gap ≠ [] ∧ Blank gap ∧ gap <:+ a :=
  ⟨"p ".toList, " ".toList, ⟨[], [], [' '], by decide, by unfold Blank; decide, by unfold Blank; decide,
    by unfold Solid; decide, rfl, by simp⟩,
    by decide, by unfold Blank; decide, ⟨"p".toList, by decide⟩⟩

/-- A comment after a value and one after a line of hyphens. -/
example := C141_line_partial ⟨[], none, none⟩ "--- ".toList " end".toList
  (.inr (.inl ⟨[], "- ".toList, by simp [Blank], by decide⟩))

example := C141_document_partial ["--- # end".toList, "x 5".toList] ["--- ".toList, "x 5".toList]
  (.cons (.inr ⟨" end".toList, by decide, .inr (.inl ⟨[], "- ".toList, by simp [Blank], by decide⟩)⟩)
    (.cons (.inl rfl) .nil))

end Demo

end Specs
end Ade
