import Verif.Model.LggMain
import Verif.Props.Lgg
import Verif.Props.LggNames
import Mathlib.Data.List.Forall2
import Mathlib.Data.List.Perm.Basic
import Mathlib.Data.List.Perm.Subperm

/-!
# C121: the log grepper as a whole

From the arguments on the command line and the file to the table that is printed.
-/

set_option autoImplicit false

namespace Ade
namespace LggMain
open LogText LggNames

/-! ## Trimming of complete rows -/

theorem trimLoop_plain (best : ℚ) (last : TRow) (rs : List TRow) :
    (trimLoop best last rs).map plain = Lgg.trimLoop 2 (1 / 100) best (plain last) (rs.map plain) := by
  induction rs generalizing last with
  | nil => rfl
  | cons r rs ih =>
    simp only [trimLoop, List.map_cons, Lgg.trimLoop]
    have : (plain r).sse = r.sse := rfl
    rw [this]
    split_ifs
    · rfl
    · rw [List.map_cons, ih]
    · exact ih last

theorem trimLoop_sublist (best : ℚ) (last : TRow) (rs : List TRow) : (trimLoop best last rs).Sublist rs := by
  induction rs generalizing last with
  | nil => exact List.Sublist.refl _
  | cons r rs ih =>
    unfold trimLoop
    split_ifs
    · exact List.nil_sublist _
    · exact (ih r).cons_cons r
    · exact (ih last).cons r

theorem sliceLast_map {α β : Type} (f : α → β) (n : ℕ) (xs : List α) :
    (Lgg.sliceLast n xs).map f = Lgg.sliceLast n (xs.map f) := by
  unfold Lgg.sliceLast
  split_ifs
  · rfl
  · rw [List.map_drop, List.length_map]

theorem trim_plain (K kept : List TRow) (h : trim K = some kept) :
    kept.map plain = Lgg.trim 2 (1 / 100) 40 (K.map plain) := by
  cases K with
  | nil => cases h
  | cons r rs =>
    simp only [trim, Option.some.injEq] at h
    subst h
    rw [List.map_reverse, sliceLast_map, List.map_cons, trimLoop_plain]
    rfl

theorem trim_sublist (K kept : List TRow) (h : trim K = some kept) : kept.reverse.Sublist K := by
  cases K with
  | nil => cases h
  | cons r rs =>
    simp only [trim, Option.some.injEq] at h
    subst h
    rw [List.reverse_reverse]
    exact (Lgg.sliceLast_sublist _ _).trans ((trimLoop_sublist r.sse r rs).cons_cons r)

/-! ## Lists related item by item -/

theorem sublist_forall₂ {α β : Type} {R : α → β → Prop} {l : List α} {r r' : List β} (hs : r'.Sublist r)
    (h : List.Forall₂ R l r) : ∃ l', l'.Sublist l ∧ List.Forall₂ R l' r' := by
  induction hs generalizing l with
  | slnil => cases h; exact ⟨[], .slnil, .nil⟩
  | cons b _ ih =>
    cases h with
    | cons _ h =>
      obtain ⟨l', h1, h2⟩ := ih h
      exact ⟨l', h1.cons _, h2⟩
  | cons_cons b _ ih =>
    cases h with
    | cons hb h =>
      obtain ⟨l', h1, h2⟩ := ih h
      exact ⟨_ :: l', h1.cons_cons _, h2.cons hb⟩

theorem perm_forall₂ {α β : Type} {R : α → β → Prop} {l : List α} {r r' : List β} (hp : r.Perm r')
    (h : List.Forall₂ R l r) : ∃ l', l'.Perm l ∧ List.Forall₂ R l' r' := by
  obtain ⟨l', h1, h2⟩ := List.perm_comp_forall₂ hp.symm h.flip
  exact ⟨l', h2, h1.flip⟩

/-! ## The specification -/

/-- The command line names the log file and the patterns: an argument with a dot in the first place is the file, the
others are patterns; otherwise all of them are patterns and the file is `~/pfinder.log`. -/
def Asks (argv : List Str) (path : Str) (patterns : List Str) : Prop :=
  ('.' ∈ path ∧ argv = path :: patterns) ∨
    (path = "~/pfinder.log".toList ∧ argv = patterns ∧ ∀ a, patterns.head? = some a → '.' ∉ a)

/-- The words of a row of the table for an entry: its score, then for each of the names the value that the entry has for it
and its stars. -/
def RowOf (float : Str → Option ℚ) (fmt : ℚ → Str) (names : List Str) (e : ℚ × PD) (words : List Str) : Prop :=
  ∃ cells : List Str, words = fmt e.1 :: cells ∧
    List.Forall₂ (fun n w => ∃ i v, get e.2 n = some i ∧ float i.value = some v ∧
      w = fmt v ++ List.replicate i.stars.length '*') names cells

/-- The printed lines: an empty one, the heading, dashes, the rows, and an empty one. -/
def IsTable (names : List Str) (rows : List (List Str)) (lines : List Str) : Prop :=
  ∃ (head dashes : Str) (body : List Str), lines = [] :: head :: dashes :: (body ++ [[]]) ∧
    split head = "SSE".toList :: names ∧ (∀ c ∈ dashes, c = '-') ∧ dashes ≠ [] ∧ body.map split = rows

/-- Which of the items are shown, in which order: some of them, the worse ones first, none with a score of more than
twice the lowest one, at most forty; and the best one last if there are not more than forty in all. -/
structure Chosen {α : Type} (score : α → ℚ) (all shown : List α) : Prop where
  some : shown.Subperm all
  order : shown.Pairwise fun a b => score b ≤ score a
  ratio : (∀ a ∈ all, 0 ≤ score a) → ∀ a ∈ shown, ∀ b ∈ all, score a ≤ 2 * score b
  limit : shown.length ≤ 40
  best : all.length ≤ 40 → ∃ b ∈ shown.getLast?, ∀ a ∈ all, score b ≤ score a

/-- `np.argsort` gives an order with ascending scores. -/
def Sorts (argsort : List TRow → List TRow) : Prop :=
  ∀ rows, (argsort rows).Perm rows ∧ (argsort rows).Pairwise fun a b => a.sse ≤ b.sse

/-- C121: the first argument is the log file if it has a dot in it; otherwise the file is `~/pfinder.log` and all arguments
are patterns.  Without that file the script says so and prints nothing else. -/
theorem C121_arguments (float : Str → Option ℚ) (fmt : ℚ → Str) (argsort : List TRow → List TRow)
    (expanduser : Str → Str) (argv : List Str) :
    ∃ path patterns, Asks argv path patterns ∧ (∀ p q, Asks argv p q → p = path ∧ q = patterns) ∧
      ∀ files, (files (expanduser path) = none ↔ main float fmt argsort expanduser files argv = .noFile) ∧
        ∀ files', files' (expanduser path) = files (expanduser path) →
          main float fmt argsort expanduser files' argv = main float fmt argsort expanduser files argv := by
  have hcall : ∀ o names, call float fmt argsort o names ≠ .noFile := by
    intro o names
    unfold call
    split_ifs
    · simp
    · cases load float names o.yields with
      | none => simp
      | some rows =>
        cases h : trim (argsort rows) <;> simp [h]
  have key : ∀ path patterns, splitArgs argv = (path, patterns) → ∀ files : Str → Option (List Str),
      (files (expanduser path) = none ↔ main float fmt argsort expanduser files argv = .noFile) ∧
        ∀ files', files' (expanduser path) = files (expanduser path) →
          main float fmt argsort expanduser files' argv = main float fmt argsort expanduser files argv := by
    intro path patterns hs files
    refine ⟨?_, fun files' hf => by simp only [main, hs, hf]⟩
    simp only [main, hs]
    cases hfile : files (expanduser path) with
    | none => simp
    | some file =>
      simp only [reduceCtorEq, false_iff]
      cases hc : construct (filerator float file) patterns with
      | none => simp
      | some names => exact hcall _ _
  cases argv with
  | nil =>
    refine ⟨defaultFile, [], .inr ⟨rfl, rfl, by simp⟩, ?_, key _ _ rfl⟩
    rintro p q (⟨-, h⟩ | ⟨rfl, h, -⟩)
    · cases h
    · exact ⟨rfl, h.symm⟩
  | cons a rest =>
    by_cases ha : '.' ∈ a
    · refine ⟨a, rest, .inl ⟨ha, rfl⟩, ?_, key a rest (by rw [splitArgs, if_pos ha])⟩
      rintro p q (⟨-, h⟩ | ⟨rfl, rfl, h⟩)
      · cases h; exact ⟨rfl, rfl⟩
      · exact absurd ha (h a rfl)
    · refine ⟨defaultFile, a :: rest, .inr ⟨rfl, rfl, by simpa using ha⟩, ?_, key defaultFile (a :: rest) (by rw [splitArgs, if_neg ha])⟩
      rintro p q (⟨h, h'⟩ | ⟨rfl, h, -⟩)
      · cases h'; exact absurd h ha
      · exact ⟨rfl, h.symm⟩

theorem splitArgs_of {argv : List Str} {path : Str} {patterns : List Str} (h : Asks argv path patterns) :
    splitArgs argv = (path, patterns) := by
  rcases h with ⟨h, rfl⟩ | ⟨rfl, rfl, h⟩
  · simp [splitArgs, h]
  · cases argv with
    | nil => unfold splitArgs defaultFile; with_reducible rfl
    | cons a rest =>
      have h' := h a List.head?_cons
      simp only [splitArgs, if_neg h']
      unfold defaultFile
      with_reducible rfl

theorem main_eq (float : Str → Option ℚ) (fmt : ℚ → Str) (argsort : List TRow → List TRow) (expanduser : Str → Str)
    (files : Str → Option (List Str)) {argv : List Str} {path : Str} {patterns : List Str} (ha : Asks argv path patterns)
    {file : List Str} (hf : files (expanduser path) = some file) {names : List Str}
    (hn : construct (filerator float file) patterns = some names) :
    main float fmt argsort expanduser files argv = call float fmt argsort (filerator float file) names := by
  simp only [main, splitArgs_of ha, hf, hn]

/-- The rows for complete entries. -/
theorem load_complete (float : Str → Option ℚ) (names : List Str) (yields : List (ℚ × PD))
    (hc : ∀ e ∈ yields, ∀ n ∈ names, ∃ i v, get e.2 n = some i ∧ float i.value = some v ∧ i.stars.length ≤ 2) :
    ∃ rows, load float names yields = some rows ∧ List.Forall₂ (fun e r => r.sse = e.1 ∧
      r.values.length = r.stars.length ∧ (∀ k ∈ r.stars, k ≤ 2) ∧
      List.Forall₂ (CellOf float e.2) names (r.values.zip r.stars)) yields rows := by
  have hrow : ∀ e : ℚ × PD, (∀ n ∈ names, ∃ i v, get e.2 n = some i ∧ float i.value = some v ∧ i.stars.length ≤ 2) →
      ∃ r : TRow, r.sse = e.1 ∧ r.values.length = r.stars.length ∧ (∀ k ∈ r.stars, k ≤ 2) ∧
        List.Forall₂ (CellOf float e.2) names (r.values.zip r.stars) := by
    intro e he
    have : ∃ cs : List (ℚ × ℕ), (∀ c ∈ cs, c.2 ≤ 2) ∧ List.Forall₂ (CellOf float e.2) names cs := by
      clear hc
      induction names with
      | nil => exact ⟨[], by simp, .nil⟩
      | cons n ns ih =>
        obtain ⟨cs, h1, h2⟩ := ih fun m hm => he m (by simp [hm])
        obtain ⟨i, v, hi, hv, hst⟩ := he n (by simp)
        refine ⟨(v, i.stars.length) :: cs, ?_, h2.cons ⟨i, hi, hv, rfl⟩⟩
        simpa [hst] using fun a b => h1 (a, b)
    obtain ⟨cs, h1, h2⟩ := this
    refine ⟨⟨e.1, cs.map Prod.fst, cs.map Prod.snd⟩, rfl, by simp, ?_, ?_⟩
    · intro k hk
      obtain ⟨c, hc, rfl⟩ := List.mem_map.1 hk
      exact h1 c hc
    · rw [List.zip_map']
      simpa using h2
  have : ∃ rows : List TRow, List.Forall₂ (fun e r => r.sse = e.1 ∧
      r.values.length = r.stars.length ∧ (∀ k ∈ r.stars, k ≤ 2) ∧
      List.Forall₂ (CellOf float e.2) names (r.values.zip r.stars)) yields rows := by
    induction yields with
    | nil => exact ⟨[], .nil⟩
    | cons e es ih =>
      obtain ⟨rows, hr⟩ := ih fun e he => hc e (by simp [he])
      obtain ⟨r, h⟩ := hrow e (hc e (by simp))
      exact ⟨r :: rows, hr.cons h⟩
  obtain ⟨rows, hr⟩ := this
  exact ⟨rows, (C83_load float names yields rows).2 (hr.imp fun _ _ h => ⟨h.1, h.2.1, h.2.2.2⟩), hr⟩

theorem zipWith_forall₂ (float : Str → Option ℚ) (fmt : ℚ → Str) (pd : PD) (names : List Str) (vs : List ℚ)
    (ks : List ℕ) (h : List.Forall₂ (CellOf float pd) names (vs.zip ks)) :
    List.Forall₂ (fun n w => ∃ i v, get pd n = some i ∧ float i.value = some v ∧
      w = fmt v ++ List.replicate i.stars.length '*') names
      (List.zipWith (fun v k => fmt v ++ List.replicate k '*') vs ks) := by
  rw [← List.map_uncurry_zip_eq_zipWith]
  rw [List.forall₂_map_right_iff]
  refine h.imp ?_
  rintro n ⟨v, k⟩ ⟨i, hi, hv, hk⟩
  exact ⟨i, v, hi, hv, by simp only [Function.uncurry]; rw [hk]⟩

/-- The table for given names. -/
theorem call_table (float : Str → Option ℚ) (fmt : ℚ → Str) (hf : ∀ v, IsWord (fmt v))
    (argsort : List TRow → List TRow) (hsort : Sorts argsort) (yields : List (ℚ × PD)) (hne : yields ≠ [])
    (names : List Str) (hnames : ∀ n ∈ names, IsWord n)
    (hc : ∀ e ∈ yields, ∀ n ∈ names, ∃ i v, get e.2 n = some i ∧ float i.value = some v ∧ i.stars.length ≤ 2) :
    ∃ lines rows shown, call float fmt argsort ⟨yields, false⟩ names = .table lines ∧ IsTable names rows lines ∧
      List.Forall₂ (RowOf float fmt names) shown rows ∧ Chosen Prod.fst yields shown := by
  obtain ⟨rows, hl, hr⟩ := load_complete float names yields hc
  obtain ⟨hperm, hord⟩ := hsort rows
  have hrne : argsort rows ≠ [] := by
    intro h0
    rw [h0] at hperm
    have : rows = [] := hperm.symm.eq_nil
    subst this
    cases hr
    exact hne rfl
  obtain ⟨k, ks, hK⟩ := List.exists_cons_of_ne_nil hrne
  obtain ⟨kept, hkept⟩ : ∃ kept, trim (argsort rows) = some kept := by rw [hK]; exact ⟨_, rfl⟩
  obtain ⟨es, hes, hesr⟩ := perm_forall₂ hperm.symm hr
  obtain ⟨sub, hsub, hsubr⟩ := sublist_forall₂ (trim_sublist _ _ hkept) hesr
  have hshown := List.rel_reverse hsubr
  rw [List.reverse_reverse] at hshown
  have hstars : ∀ r ∈ kept, ∀ k ∈ r.stars, k ≤ 2 := by
    have hsh := hshown
    clear hkept hsubr hshown
    generalize sub.reverse = l at hsh
    induction hsh with
    | nil => simp
    | cons h _ ih =>
      intro r hm
      rcases List.mem_cons.1 hm with rfl | hm
      · exact h.2.2.1
      · exact ih r hm
  obtain ⟨dashes, hd1, hd2, hlines, hhead, hbody⟩ := C83_table fmt hf names hnames kept hstars
  have hplain := trim_plain _ _ hkept
  -- scores of what is shown are those of the kept rows
  have hscore : ∀ {l : List (ℚ × PD)} {r : List TRow}, List.Forall₂ (fun e r => r.sse = e.1 ∧
      r.values.length = r.stars.length ∧ (∀ k ∈ r.stars, k ≤ 2) ∧
      List.Forall₂ (CellOf float e.2) names (r.values.zip r.stars)) l r →
      l.map Prod.fst = (r.map plain).map Lgg.Row.sse := by
    intro l r h
    induction h with
    | nil => rfl
    | cons h _ ih => simp only [List.map_cons, ih]; rw [← h.1]; rfl
  have hsc := hscore hshown
  have harg : Lgg.IsArgsort (rows.map plain) ((argsort rows).map plain) :=
    ⟨hperm.map plain, by rw [List.pairwise_map]; exact hord⟩
  have hall : yields.map Prod.fst = (rows.map plain).map Lgg.Row.sse := hscore hr
  have hmemall : ∀ e ∈ yields, ∃ r ∈ rows.map plain, r.sse = e.1 := by
    intro e he
    have : e.1 ∈ (rows.map plain).map Lgg.Row.sse := hall ▸ List.mem_map_of_mem he
    obtain ⟨r, hr, hre⟩ := List.mem_map.1 this
    exact ⟨r, hr, hre⟩
  have hmemrow : ∀ r ∈ rows.map plain, ∃ e ∈ yields, r.sse = e.1 := by
    intro r hr
    have : r.sse ∈ yields.map Prod.fst := hall ▸ List.mem_map_of_mem hr
    obtain ⟨e, he, hre⟩ := List.mem_map.1 this
    exact ⟨e, he, hre.symm⟩
  have hmemshown : ∀ e ∈ sub.reverse, ∃ r ∈ kept.map plain, r.sse = e.1 := by
    intro e he
    have : e.1 ∈ (kept.map plain).map Lgg.Row.sse := hsc ▸ List.mem_map_of_mem he
    obtain ⟨r, hr, hre⟩ := List.mem_map.1 this
    exact ⟨r, hr, hre⟩
  refine ⟨makeLines fmt names kept, _, sub.reverse, ?_, ⟨heading names, dashes, kept.map (rowLine fmt), ?_, hhead, hd1, ?_, hbody⟩, ?_, ?_⟩
  · simp only [call, hl, hkept, Bool.false_eq_true, if_false]
  · rw [hlines]; rfl
  · intro h0; rw [h0] at hd2; simp at hd2
  · rw [List.forall₂_map_right_iff]
    refine hshown.imp ?_
    rintro e r ⟨h1, h2, -, h4⟩
    exact ⟨_, by rw [h1], zipWith_forall₂ float fmt e.2 names r.values r.stars h4⟩
  · refine ⟨?_, ?_, ?_, ?_, ?_⟩
    · exact (List.reverse_perm sub).subperm.trans (hsub.subperm.trans hes.subperm)
    · have h := (Lgg.C59_in_score_order 2 (1 / 100) 40 _ _ harg).2
      rw [← hplain] at h
      have h' : ((kept.map plain).map Lgg.Row.sse).Pairwise fun a b => b ≤ a := List.pairwise_map.2 h
      rw [← hsc, List.pairwise_map] at h'
      exact h'
    · intro h0 a ha b hb
      obtain ⟨r, hr1, hr2⟩ := hmemshown a ha
      have h00 : ∀ r ∈ rows.map plain, 0 ≤ r.sse := by
        intro r hr
        obtain ⟨e, he, hre⟩ := hmemrow r hr
        rw [hre]; exact h0 e he
      obtain ⟨m, hm, hmin⟩ : ∃ m ∈ rows.map plain, ∀ x ∈ rows.map plain, m.sse ≤ x.sse := by
        refine ⟨plain k, List.mem_map_of_mem (hperm.mem_iff.1 (by rw [hK]; simp)), ?_⟩
        intro x hx
        obtain ⟨y, hy, rfl⟩ := List.mem_map.1 hx
        have hy' := hperm.mem_iff.2 hy
        rw [hK] at hy' hord
        rcases List.mem_cons.1 hy' with rfl | hy'
        · exact le_rfl
        · exact (List.pairwise_cons.1 hord).1 y hy'
      have h := Lgg.C59_within_ratio 2 (1 / 100) 40 _ _ harg (by norm_num) h00 r (by rw [← hplain]; exact hr1) m hm hmin
      obtain ⟨rb, hrb, hrb'⟩ := hmemall b hb
      rw [← hr2, ← hrb']
      have := hmin rb hrb
      linarith
    · have h := Lgg.C59_row_limit 2 (1 / 100) 40 ((argsort rows).map plain) (by norm_num)
      rw [← hplain, List.length_map] at h
      rw [hshown.length_eq]
      exact h
    · intro hlen
      have hlen' : rows.length ≤ 40 := by rw [← hr.length_eq]; exact hlen
      have hq : (Lgg.qualifying 2 (1 / 100) ((argsort rows).map plain)).length ≤ 40 := by
        rw [Lgg.qualifying_eq, List.length_reverse]
        refine (Lgg.select_sublist 2 (1 / 100) ((argsort rows).map plain)).length_le.trans ?_
        rw [List.length_map, hperm.length_eq]
        exact hlen'
      obtain ⟨-, b, hb1, hb2, hb3⟩ := Lgg.C59_best_last_partial 2 (1 / 100) 40 _ _ harg (by
        intro h0
        rw [List.map_eq_nil_iff] at h0
        rw [h0] at hperm
        exact hrne (by rw [h0]; exact hperm.eq_nil)) hq
      rw [← hplain] at hb3
      have hlast : (sub.reverse.map Prod.fst).getLast? = some b.sse := by
        rw [hsc, List.getLast?_map, hb3]; rfl
      rw [List.getLast?_map, Option.map_eq_some_iff] at hlast
      obtain ⟨e, he1, he2⟩ := hlast
      refine ⟨e, he1, fun a ha => ?_⟩
      obtain ⟨r, hr1, hr2⟩ := hmemall a ha
      rw [he2, ← hr2]
      exact hb2 r hr1

/-! ## C121: the table -/

/-- C121: with patterns, if the file can be read, has an entry, and every entry has a value for the parameters of the first
entry, a table is printed: its columns are the parameters of the first entry that match one of the patterns, in order;
its rows are for entries of the log with their values and stars, the worse ones first. -/
theorem C121_table (float : Str → Option ℚ) (fmt : ℚ → Str) (hf : ∀ v, IsWord (fmt v))
    (argsort : List TRow → List TRow) (hsort : Sorts argsort) (expanduser : Str → Str) (files : Str → Option (List Str))
    (argv : List Str) (path : Str) (patterns : List Str) (ha : Asks argv path patterns) (hp : patterns ≠ [])
    (file : List Str) (hfile : files (expanduser path) = some file) (e : ℚ × PD) (rest : List (ℚ × PD))
    (ho : filerator float file = ⟨e :: rest, false⟩)
    (hc : ∀ e' ∈ e :: rest, ∀ n ∈ e.2.map Item.name,
      ∃ i v, get e'.2 n = some i ∧ float i.value = some v ∧ i.stars.length ≤ 2) :
    ∃ lines names rows shown, main float fmt argsort expanduser files argv = .table lines ∧
      names.Pairwise (· < ·) ∧
      (∀ n, n ∈ names ↔ n ∈ e.2.map Item.name ∧ ∃ a ∈ patterns, GlobMatch (parseGlob a.length a) n) ∧
      IsTable names rows lines ∧ List.Forall₂ (RowOf float fmt names) shown rows ∧
      Chosen Prod.fst (e :: rest) shown := by
  obtain ⟨names, hsel, hpw, hmem⟩ := C82_selected_partial e rest patterns hp
  have hy : (filerator float file).yields = e :: rest := by rw [ho]
  have hsel' : selected (filerator float file).yields patterns = some names := by rw [hy]; exact hsel
  have hset := C82_shown float file patterns names hp hsel'
  have hcon : construct (filerator float file) patterns = some names := by
    simp only [construct, hp, decide_false, Bool.false_and, Bool.false_eq_true, if_false, hsel', Option.map_some, hset]
  rw [main_eq float fmt argsort expanduser files ha hfile hcon, ho]
  have hnames : ∀ n ∈ names, IsWord n := by
    intro n hn
    obtain ⟨i, hi, rfl⟩ := List.mem_map.1 ((hmem n).1 hn).1
    exact (name_word (C82_names_read float file e (by rw [hy]; simp) i hi)).1
  obtain ⟨lines, rows, shown, h1, h2, h3, h4⟩ := call_table float fmt hf argsort hsort (e :: rest) (by simp) names hnames
    fun e' he' n hn => hc e' he' n ((hmem n).1 hn).1
  exact ⟨lines, names, rows, shown, h1, hpw, hmem, h2, h3, h4⟩

theorem starred_subset {N : ℕ} {es : List (Lgg.Entry Str)} {n : Str} (h : n ∈ Lgg.starredNames N es) :
    ∃ e ∈ es, ∃ s, (n, s) ∈ e.params ∧ s ≠ 0 := by
  have hput : ∀ (b : List (Lgg.Entry Str)) e x, x ∈ Lgg.put b e → x ∈ b ∨ x = e := by
    intro b e x hx
    unfold Lgg.put at hx
    split_ifs at hx
    · obtain ⟨y, hy, rfl⟩ := List.mem_map.1 hx
      split_ifs
      · exact .inr rfl
      · exact .inl hy
    · simpa using hx
  have hfold : ∀ (l b : List (Lgg.Entry Str)), ∀ x ∈ l.foldl (Lgg.bestStep N) b, x ∈ b ∨ x ∈ l := by
    intro l
    induction l with
    | nil => intro b x hx; exact .inl hx
    | cons e l ih =>
      intro b x hx
      rcases ih _ x hx with h | h
      · unfold Lgg.bestStep at h
        split_ifs at h
        · rcases hput _ _ _ h with h | rfl
          · exact .inl h
          · exact .inr (by simp)
        · rcases hput _ _ _ h with h | rfl
          · exact .inl (List.mem_filter.1 h).1
          · exact .inr (by simp)
        · exact .inl h
      · exact .inr (by simp [h])
  unfold Lgg.starredNames at h
  rw [(List.perm_insertionSort _ _).mem_iff] at h
  unfold Lgg.namesOf at h
  rw [Lgg.collect_mem] at h
  simp only [List.not_mem_nil, false_or, List.mem_flatMap, List.mem_map, List.mem_filter] at h
  obtain ⟨b, hb, x, ⟨hx, hx0⟩, rfl⟩ := h
  have := hfold es [] b hb
  simp only [List.not_mem_nil, false_or] at this
  exact ⟨b, this, x.2, hx, by simpa using hx0⟩

/-- C121: without patterns, the columns are the parameters with stars in one of the four entries with the lowest scores (if
no two entries have the same score), in order. -/
theorem C121_starred (float : Str → Option ℚ) (fmt : ℚ → Str) (hf : ∀ v, IsWord (fmt v))
    (argsort : List TRow → List TRow) (hsort : Sorts argsort) (expanduser : Str → Str) (files : Str → Option (List Str))
    (argv : List Str) (path : Str) (ha : Asks argv path []) (file : List Str) (hfile : files (expanduser path) = some file)
    (yields : List (ℚ × PD)) (hne : yields ≠ []) (ho : filerator float file = ⟨yields, false⟩)
    (hd : (yields.map Prod.fst).Nodup)
    (hc : ∀ e ∈ yields, ∀ e' ∈ yields, ∀ n ∈ e.2.map Item.name,
      ∃ i v, get e'.2 n = some i ∧ float i.value = some v ∧ i.stars.length ≤ 2) :
    ∃ lines names rows shown, main float fmt argsort expanduser files argv = .table lines ∧
      names.Pairwise (· < ·) ∧
      (∀ n, n ∈ names ↔ ∃ e ∈ yields, (yields.filter fun x => x.1 < e.1).length < 4 ∧
        ∃ i ∈ e.2, i.name = n ∧ i.stars ≠ []) ∧
      IsTable names rows lines ∧ List.Forall₂ (RowOf float fmt names) shown rows ∧ Chosen Prod.fst yields shown := by
  have hy : (filerator float file).yields = yields := by rw [ho]
  set names := Lgg.starredNames 4 (yields.map starEntry) with hnm
  have hsse : (yields.map starEntry).map Lgg.Entry.sse = yields.map Prod.fst := by
    rw [List.map_map]; rfl
  obtain ⟨hmem, hnd, hpw⟩ := Lgg.C65_starred_partial 4 (by norm_num) (yields.map starEntry) (by rw [hsse]; exact hd)
  have hin : ∀ n ∈ names, ∃ e ∈ yields, n ∈ e.2.map Item.name := by
    intro n hn
    obtain ⟨x, hx, s, hs, -⟩ := starred_subset hn
    obtain ⟨e, he, rfl⟩ := List.mem_map.1 hx
    obtain ⟨i, hi, hins⟩ := List.mem_map.1 hs
    cases hins
    exact ⟨e, he, List.mem_map_of_mem hi⟩
  have hread : ∀ n ∈ names, IsName n := by
    intro n hn
    obtain ⟨e, he, h⟩ := hin n hn
    obtain ⟨i, hi, rfl⟩ := List.mem_map.1 h
    exact C82_names_read float file e (by rw [hy]; exact he) i hi
  have hcon : construct (filerator float file) [] = some names := by
    have hf0 : (filerator float file).failed = false := by rw [ho]
    simp only [construct, hf0, Bool.and_false, Bool.false_eq_true, if_false, C82_default, hy, Option.map_some]
    rw [← hnm, C82_setup_plain names fun n hn => (name_word (hread n hn)).2.2.2]
  rw [main_eq float fmt argsort expanduser files ha hfile hcon, ho]
  obtain ⟨lines, rows, shown, h1, h2, h3, h4⟩ := call_table float fmt hf argsort hsort yields hne names
    (fun n hn => (name_word (hread n hn)).1) fun e' he' n hn => by
      obtain ⟨e, he, h⟩ := hin n hn
      exact hc e he e' he' n h
  refine ⟨lines, names, rows, shown, h1, ?_, ?_, h2, h3, h4⟩
  · exact (hpw.and hnd).imp fun h => lt_of_le_of_ne h.1 h.2
  · intro n
    rw [hnm, hmem n]
    have hlen : ∀ q : ℚ, ((yields.map starEntry).filter fun x => x.sse < q).length =
        (yields.filter fun x => x.1 < q).length := by
      intro q
      rw [List.filter_map, List.length_map]
      rfl
    constructor
    · rintro ⟨x, ⟨hx, hlow⟩, s, hs, hs0⟩
      obtain ⟨e, he, rfl⟩ := List.mem_map.1 hx
      obtain ⟨i, hi, hins⟩ := List.mem_map.1 hs
      cases hins
      rw [hlen] at hlow
      exact ⟨e, he, hlow, i, hi, rfl, fun h0 => hs0 (by rw [h0]; rfl)⟩
    · rintro ⟨e, he, hlow, i, hi, rfl, hi0⟩
      refine ⟨starEntry e, ⟨List.mem_map_of_mem he, by rw [hlen]; exact hlow⟩, i.stars.length,
        List.mem_map.2 ⟨i, hi, rfl⟩, fun h0 => hi0 (List.length_eq_zero_iff.1 h0)⟩

/-- C121: there is no table unless the whole file can be read, has an entry, and every entry has a value for every parameter
asked for. -/
theorem C121_no_table (float : Str → Option ℚ) (fmt : ℚ → Str) (argsort : List TRow → List TRow) (hsort : Sorts argsort)
    (expanduser : Str → Str) (files : Str → Option (List Str)) (argv : List Str) (path : Str) (patterns : List Str)
    (ha : Asks argv path patterns) (file : List Str) (hfile : files (expanduser path) = some file)
    (hbad : (filerator float file).failed = true ∨ (filerator float file).yields = [] ∨
      ∃ e ∈ (filerator float file).yields.head?, ∃ i ∈ e.2, (∃ a ∈ patterns, GlobMatch (parseGlob a.length a) i.name) ∧
        ∃ e' ∈ (filerator float file).yields, get e'.2 i.name = none) (lines : List Str) :
    main float fmt argsort expanduser files argv ≠ .table lines := by
  simp only [main, splitArgs_of ha, hfile]
  cases hc : construct (filerator float file) patterns with
  | none => simp
  | some names =>
    simp only [call]
    rcases hbad with h | h | h
    · simp [h]
    · split_ifs
      · simp
      · rw [h]
        simp only [load, List.mapM_nil, Option.pure_def]
        have : argsort [] = [] := (hsort []).1.eq_nil
        simp [this, trim]
    · obtain ⟨e, he, i, hi, ⟨a, hap, hg⟩, e', he', hget⟩ := h
      have hpne : patterns ≠ [] := List.ne_nil_of_mem hap
      cases hy : (filerator float file).yields with
      | nil => rw [hy] at he; cases he
      | cons e0 rest =>
        rw [hy] at he
        cases he
        obtain ⟨ns, hsel, -, hmem⟩ := C82_selected_partial e rest patterns hpne
        rw [← hy] at hsel
        have hset := C82_shown float file patterns ns hpne hsel
        have : names = ns := by
          simp only [construct, hpne, decide_false, Bool.false_and, Bool.false_eq_true, if_false, hsel,
            Option.map_some, hset, Option.some.injEq] at hc
          exact hc.symm
        subst this
        have := C83_missing float names (e :: rest) e' (hy ▸ he') i.name
          ((hmem _).2 ⟨List.mem_map_of_mem hi, a, hap, hg⟩) hget
        rw [this]
        simp

/-- How it ends then: an exception is raised outside of the `try` statement if there is no entry and there are patterns, or
if there are no patterns and the file cannot be read; otherwise a traceback is printed. -/
theorem C121_empty_log (float : Str → Option ℚ) (fmt : ℚ → Str) (argsort : List TRow → List TRow) (hsort : Sorts argsort)
    (expanduser : Str → Str) (files : Str → Option (List Str)) (argv : List Str) (path : Str) (patterns : List Str)
    (ha : Asks argv path patterns) (file : List Str) (hfile : files (expanduser path) = some file)
    (ho : filerator float file = ⟨[], false⟩) :
    main float fmt argsort expanduser files argv = if patterns = [] then .traceback else .raised := by
  simp only [main, splitArgs_of ha, hfile, ho]
  by_cases hp : patterns = []
  · subst hp
    have : argsort [] = [] := (hsort []).1.eq_nil
    simp only [construct, Bool.and_false, Bool.false_eq_true, if_false, C82_default, List.map_nil, Option.map_some,
      if_true, call, load, List.mapM_nil, Option.pure_def, this, trim]
  · simp only [construct, hp, decide_false, Bool.false_and, Bool.false_eq_true, if_false, C82_no_entry patterns hp,
      Option.map_none]

/-- C121: likewise if the file cannot be read to its end: outside of the `try` statement if there are no patterns or nothing was
read before, otherwise with a traceback. -/
theorem C121_unreadable (float : Str → Option ℚ) (fmt : ℚ → Str) (argsort : List TRow → List TRow)
    (expanduser : Str → Str) (files : Str → Option (List Str)) (argv : List Str) (path : Str) (patterns : List Str)
    (ha : Asks argv path patterns) (file : List Str) (hfile : files (expanduser path) = some file) (yields : List (ℚ × PD))
    (ho : filerator float file = ⟨yields, true⟩) :
    main float fmt argsort expanduser files argv = if patterns = [] ∨ yields = [] then .raised else .traceback := by
  simp only [main, splitArgs_of ha, hfile, ho]
  by_cases hp : patterns = []
  · subst hp
    simp [construct]
  · cases yields with
    | nil => simp [construct, hp, C82_no_entry patterns hp]
    | cons e rest =>
      have hs : ∃ names, selected (e :: rest) patterns = some names := by
        have hm : ∀ ps : List Str, ∃ found, ps.mapM (globNames (e :: rest)) = some found := by
          intro ps
          induction ps with
          | nil => exact ⟨[], rfl⟩
          | cons a ps ih =>
            obtain ⟨found, ih⟩ := ih
            simp [List.mapM_cons, globNames, ih]
        obtain ⟨found, hm⟩ := hm patterns
        rw [selected, if_neg hp, hm]
        exact ⟨_, rfl⟩
      obtain ⟨names, hs⟩ := hs
      simp [construct, hp, hs, call]

/-! ## What ade logged is what is shown -/

/-- A log: for each individual lines without an SSE, the individual as it is printed, and a blank line. -/
def logOf (fmt : ℚ → Str) (params : List Param) (items : List (List Str × Member)) : List Str :=
  items.flatMap fun x => x.1 ++ reprIndividual fmt x.2.sse4 (x.2.pvs params) ++ [[]]

theorem noise_entries {F : Type} (float : Str → Option F) (ns ls : List Str) (h : ∀ l ∈ ns, Noise l) :
    entries float none (ns ++ ls) = entries float none ls := by
  have := C80_reads_back float (ns.map Piece.noise) (by
    intro p hp
    obtain ⟨l, hl, rfl⟩ := List.mem_map.1 hp
    exact h l hl) (by
    intro e b he
    obtain ⟨l, hl, h⟩ := List.mem_map.1 he
    cases h) ls
  have h1 : (ns.map Piece.noise).flatMap Piece.lines = ns := by
    rw [List.flatMap_map]
    exact List.flatMap_singleton' ns
  have h2 : (ns.map Piece.noise).filterMap (Piece.entry? float) = [] := by
    rw [List.filterMap_map]
    exact List.filterMap_eq_nil_iff.2 fun _ _ => rfl
  rw [h1, h2, List.nil_append] at this
  exact Out.ext this.1 this.2

theorem log_entries (float : Str → Option ℚ) (fmt : ℚ → Str) (params : List Param)
    (hnd : (params.map Param.name).Nodup) (items : List (List Str × Member)) (sse : Member → ℚ)
    (hnoise : ∀ x ∈ items, ∀ l ∈ x.1, Noise l)
    (hsse : ∀ x ∈ items, x.2.sse4 ≠ [] ∧ (∀ c ∈ x.2.sse4, isNumChar c = true) ∧ float x.2.sse4 = some (sse x.2))
    (hp : ∀ x ∈ items, ∀ p ∈ params, IsName p.name ∧ IsNumber (fmt (x.2.val p.name)) ∧
      (part fmt (p, x.2.val p.name)).length ≤ maxLineLength) :
    ∃ ys : List (ℚ × PD), entries float none (logOf fmt params items) = ⟨ys, false⟩ ∧
      List.Forall₂ (fun x y => y.1 = sse x.2 ∧ Describes fmt params x.2 y.2) items ys := by
  induction items with
  | nil => exact ⟨[], rfl, .nil⟩
  | cons x items ih =>
    obtain ⟨ys, h1, h2⟩ := ih (fun y hy => hnoise y (by simp [hy])) (fun y hy => hsse y (by simp [hy]))
      (fun y hy => hp y (by simp [hy]))
    obtain ⟨ha, hb, hc⟩ := hsse x (by simp)
    have hx := hp x (by simp)
    have hmap : ((x.2.pvs params).map fun pv => pv.1.name) = params.map Param.name := by
      simp [Member.pvs, Function.comp_def]
    obtain ⟨pd, h3, h4, h5⟩ := C80_individual float fmt x.2.sse4 (x.2.pvs params) ⟨ha, hb⟩ (by rw [hmap]; exact hnd)
      (by
        intro pv hpv
        obtain ⟨p, hpp, rfl⟩ := List.mem_map.1 hpv
        exact ⟨(hx p hpp).1, (hx p hpp).2.1⟩)
      (by
        intro pv hpv
        obtain ⟨p, hpp, rfl⟩ := List.mem_map.1 hpv
        exact (hx p hpp).2.2) (sse x.2) hc [] (by simp) (logOf fmt params items)
    refine ⟨(sse x.2, pd) :: ys, ?_, h2.cons ⟨rfl, ?_, ?_⟩⟩
    · have : logOf fmt params (x :: items) =
          x.1 ++ (reprIndividual fmt x.2.sse4 (x.2.pvs params) ++ [] :: logOf fmt params items) := by
        simp [logOf]
      rw [this, noise_entries float _ _ (hnoise x (by simp)), h3, h1]
      rfl
    · rw [← hmap]; exact h4
    · intro p hpp
      exact h5 (p, x.2.val p.name) (List.mem_map_of_mem hpp)

theorem findTable_none (ls : List Str) (h : ∀ l ∈ ls, ¬ "Final population".toList <+: strip l) :
    findTable ls = some ([], []) := by
  induction ls with
  | nil => rfl
  | cons l ls ih =>
    have hl : ("Final population".toList.isPrefixOf (strip l)) = false := by
      rw [Bool.eq_false_iff]
      intro h0
      exact h l (by simp) (List.isPrefixOf_iff_prefix.1 h0)
    simp only [findTable, hl, Bool.false_eq_true, if_false]
    exact ih fun l hl => h l (by simp [hl])

theorem suffix_stars (p : Param) (v : ℚ) :
    (suffix p v).length ≤ 2 ∧ List.replicate (suffix p v).length '*' = suffix p v := by
  unfold suffix
  simp only
  split_ifs <;> decide

theorem forall₂_names {ps : List Param} {cells : List Str} {names : List Str} {R : Str → Str → Prop} {f : Param → Str}
    (hn : names = ps.map Param.name) (hR : ∀ p ∈ ps, ∀ w, R p.name w → w = f p) (h : List.Forall₂ R names cells) :
    cells = ps.map f := by
  subst hn
  induction ps generalizing cells with
  | nil => cases h; rfl
  | cons p ps ih =>
    cases h with
    | cons h1 h2 => rw [List.map_cons, hR p (by simp) _ h1, ih (fun q hq => hR q (by simp [hq])) h2]

/-- C121: for a log of printed individuals, with anything else without an SSE in between, the table has a column for each of
the parameters asked for, in order of the names, and its rows say about individuals of the log what was printed about
them: the SSE, the values and the stars for values close to the bounds.  (`back` are the values as read back, `out` is
the format of the table.) -/
theorem C121_individuals (float : Str → Option ℚ) (out : ℚ → Str) (hout : ∀ v, IsWord (out v))
    (argsort : List TRow → List TRow) (hsort : Sorts argsort) (expanduser : Str → Str) (files : Str → Option (List Str))
    (argv : List Str) (path : Str) (patterns : List Str) (ha : Asks argv path patterns) (hpat : patterns ≠ [])
    (fmt : ℚ → Str) (params : List Param) (hnd : (params.map Param.name).Nodup)
    (items : List (List Str × Member)) (hne : items ≠ []) (sse : Member → ℚ) (back : ℚ → ℚ)
    (hnoise : ∀ x ∈ items, ∀ l ∈ x.1, Noise l)
    (hsse : ∀ x ∈ items, x.2.sse4 ≠ [] ∧ (∀ c ∈ x.2.sse4, isNumChar c = true) ∧ float x.2.sse4 = some (sse x.2))
    (hp : ∀ x ∈ items, ∀ p ∈ params, IsName p.name ∧ IsNumber (fmt (x.2.val p.name)) ∧
      (part fmt (p, x.2.val p.name)).length ≤ maxLineLength)
    (hback : ∀ x ∈ items, ∀ p ∈ params, float (fmt (x.2.val p.name)) = some (back (x.2.val p.name)))
    (hfile : files (expanduser path) = some (logOf fmt params items))
    (hfinal : ∀ l ∈ logOf fmt params items, ¬ "Final population".toList <+: strip l) :
    ∃ (lines : List Str) (columns : List Param) (shown : List Member),
      main float out argsort expanduser files argv = .table lines ∧
      (∀ p, p ∈ columns ↔ p ∈ params ∧ ∃ a ∈ patterns, GlobMatch (parseGlob a.length a) p.name) ∧
      (columns.map Param.name).Pairwise (· < ·) ∧
      Chosen sse (items.map Prod.snd) shown ∧
      IsTable (columns.map Param.name) (shown.map fun m => out (sse m) ::
        columns.map fun p => out (back (m.val p.name)) ++ suffix p (m.val p.name)) lines := by
  obtain ⟨ys, hys, hrel⟩ := log_entries float fmt params hnd items sse hnoise hsse hp
  have hfil : filerator float (logOf fmt params items) = ⟨ys, false⟩ := by
    simp only [filerator, hys, Bool.false_eq_true, if_false, findTable_none _ hfinal, columns, List.append_nil]
  obtain ⟨e, rest, rfl⟩ : ∃ e rest, ys = e :: rest := by
    cases ys with
    | nil => cases hrel; exact absurd rfl hne
    | cons e rest => exact ⟨e, rest, rfl⟩
  -- every entry describes an individual
  have hdesc : ∀ e' ∈ e :: rest, ∃ x ∈ items, e'.1 = sse x.2 ∧ Describes fmt params x.2 e'.2 := by
    clear hys hfil
    generalize e :: rest = l at hrel
    clear hp hsse hnoise hback hfile hfinal hne
    induction hrel with
    | nil => simp
    | cons h _ ih =>
      rename_i x _ xs _ _
      intro e' he'
      rcases List.mem_cons.1 he' with rfl | he'
      · exact ⟨x, by simp, h⟩
      · obtain ⟨y, hy, h'⟩ := ih e' he'
        exact ⟨y, by simp [hy], h'⟩
  have hnames : ∀ n, n ∈ e.2.map Item.name ↔ n ∈ params.map Param.name := by
    obtain ⟨x, -, -, h⟩ := hdesc e (by simp)
    exact fun n => h.1.mem_iff
  obtain ⟨lines, names, rows, shown, h1, h2, h3, h4, h5, h6⟩ := C121_table float out hout argsort hsort expanduser files
    argv path patterns ha hpat _ hfile e rest hfil (by
      intro e' he' n hn
      obtain ⟨p, hpp, rfl⟩ := List.mem_map.1 ((hnames n).1 hn)
      obtain ⟨x, hx, -, h⟩ := hdesc e' he'
      exact ⟨_, _, h.2 p hpp, hback x hx p hpp, (suffix_stars p _).1⟩)
  -- the columns
  obtain ⟨cols, hcols⟩ : ∃ cols : List Param, names = cols.map Param.name ∧ ∀ p ∈ cols, p ∈ params := by
    have : ∀ n ∈ names, ∃ p ∈ params, p.name = n := by
      intro n hn
      obtain ⟨p, hpp, h⟩ := List.mem_map.1 ((hnames n).1 ((h3 n).1 hn).1)
      exact ⟨p, hpp, h⟩
    clear h2 h3 h4 h5 h6
    induction names with
    | nil => exact ⟨[], rfl, by simp⟩
    | cons n ns ih =>
      obtain ⟨cols, hc1, hc2⟩ := ih fun m hm => this m (by simp [hm])
      obtain ⟨p, hpp, rfl⟩ := this n (by simp)
      exact ⟨p :: cols, by rw [hc1]; rfl, by simpa [hpp] using hc2⟩
  obtain ⟨hcn, hcp⟩ := hcols
  -- the individuals
  obtain ⟨xs, hxs, hxr⟩ : ∃ xs : List (List Str × Member), xs.Subperm items ∧
      List.Forall₂ (fun x y => y.1 = sse x.2 ∧ Describes fmt params x.2 y.2) xs shown := by
    obtain ⟨l, hl1, hl2⟩ := h6.some
    obtain ⟨a, ha1, ha2⟩ := sublist_forall₂ hl2 hrel
    obtain ⟨b, hb1, hb2⟩ := perm_forall₂ hl1 ha2
    exact ⟨b, hb1.subperm.trans ha1.subperm, hb2⟩
  have hscore : ∀ {l : List (List Str × Member)} {r : List (ℚ × PD)}, List.Forall₂ (fun x y => y.1 = sse x.2 ∧
      Describes fmt params x.2 y.2) l r → r.map Prod.fst = (l.map Prod.snd).map sse := by
    intro l r h
    induction h with
    | nil => rfl
    | cons h _ ih => simp only [List.map_cons, ih]; rw [h.1]
  have hsc1 := hscore hrel
  have hsc2 := hscore hxr
  have hmemall : ∀ m ∈ items.map Prod.snd, ∃ y ∈ e :: rest, y.1 = sse m := by
    intro m hm
    have : sse m ∈ (e :: rest).map Prod.fst := hsc1 ▸ List.mem_map_of_mem hm
    obtain ⟨y, hy, h⟩ := List.mem_map.1 this
    exact ⟨y, hy, h⟩
  have hmemy : ∀ y ∈ e :: rest, ∃ m ∈ items.map Prod.snd, y.1 = sse m := by
    intro y hy
    have : y.1 ∈ (items.map Prod.snd).map sse := hsc1 ▸ List.mem_map_of_mem hy
    obtain ⟨m, hm, h⟩ := List.mem_map.1 this
    exact ⟨m, hm, h.symm⟩
  have hmemx : ∀ m ∈ xs.map Prod.snd, ∃ y ∈ shown, y.1 = sse m := by
    intro m hm
    have : sse m ∈ shown.map Prod.fst := hsc2 ▸ List.mem_map_of_mem hm
    obtain ⟨y, hy, h⟩ := List.mem_map.1 this
    exact ⟨y, hy, h⟩
  have hlen1 : items.length = (e :: rest).length := hrel.length_eq
  have hlen2 : xs.length = shown.length := hxr.length_eq
  refine ⟨lines, cols, xs.map Prod.snd, h1, ?_, by rw [← hcn]; exact h2, ⟨?_, ?_, ?_, ?_, ?_⟩, ?_⟩
  · intro p
    constructor
    · intro hpc
      exact ⟨hcp p hpc, ((h3 p.name).1 (by rw [hcn]; exact List.mem_map_of_mem hpc)).2⟩
    · rintro ⟨hpp, hg⟩
      have : p.name ∈ names := (h3 p.name).2 ⟨(hnames _).2 (List.mem_map_of_mem hpp), hg⟩
      rw [hcn] at this
      obtain ⟨q, hq, hqn⟩ := List.mem_map.1 this
      have : q = p := List.inj_on_of_nodup_map hnd (hcp q hq) hpp hqn
      rwa [← this]
  · obtain ⟨l, hl1, hl2⟩ := hxs
    exact ⟨l.map Prod.snd, hl1.map _, hl2.map _⟩
  · have h := h6.order
    have h' : (shown.map Prod.fst).Pairwise fun a b => b ≤ a := List.pairwise_map.2 h
    rw [hsc2, List.pairwise_map] at h'
    exact h'
  · intro h0 a ha b hb
    obtain ⟨y, hy, hya⟩ := hmemx a ha
    obtain ⟨z, hz, hzb⟩ := hmemall b hb
    rw [← hya, ← hzb]
    exact h6.ratio (by
      intro w hw
      obtain ⟨m, hm, hwm⟩ := hmemy w hw
      rw [hwm]; exact h0 m hm) y hy z hz
  · rw [List.length_map, hlen2]; exact h6.limit
  · intro hl
    obtain ⟨y, hy1, hy2⟩ := h6.best (by rw [← hlen1]; simpa using hl)
    have hlast : ((xs.map Prod.snd).map sse).getLast? = some y.1 := by
      rw [← hsc2, List.getLast?_map, hy1]; rfl
    rw [List.getLast?_map, Option.map_eq_some_iff] at hlast
    obtain ⟨m, hm1, hm2⟩ := hlast
    refine ⟨m, hm1, fun a ha => ?_⟩
    obtain ⟨z, hz, hza⟩ := hmemall a ha
    rw [hm2, ← hza]
    exact hy2 z hz
  · have hrows : rows = (xs.map Prod.snd).map fun m => out (sse m) ::
        cols.map fun p => out (back (m.val p.name)) ++ suffix p (m.val p.name) := by
      have hxi : ∀ x ∈ xs, x ∈ items := fun x hx => hxs.subset hx
      clear h1 h4 h6 hsc2 hmemx hlen2 hxs
      induction hxr generalizing rows with
      | nil => cases h5; rfl
      | cons h _ ih =>
        rename_i x y _ _ _
        cases h5 with
        | cons hr h5 =>
          rw [List.map_cons, List.map_cons, ih _ h5 fun x hx => hxi x (by simp [hx])]
          obtain ⟨cells, rfl, hc⟩ := hr
          rw [h.1, forall₂_names (f := fun p => out (back (x.2.val p.name)) ++ suffix p (x.2.val p.name)) hcn ?_ hc]
          rintro p hpc w ⟨i, v, hi, hv, rfl⟩
          rw [h.2.2 p (hcp p hpc)] at hi
          cases hi
          rw [hback x (hxi x (by simp)) p (hcp p hpc)] at hv
          cases hv
          rw [(suffix_stars p _).2]
    rw [← hrows, ← hcn]
    exact h4

/-! ## Examples -/

namespace Demo

/-- An order of the rows. -/
def order (rows : List TRow) : List TRow := rows.insertionSort fun a b => a.sse ≤ b.sse

theorem order_sorts : Sorts order := by
  have : Std.Total fun a b : TRow => a.sse ≤ b.sse := ⟨fun a b => le_total a.sse b.sse⟩
  have : IsTrans TRow fun a b => a.sse ≤ b.sse := ⟨fun a b c h h' => le_trans h h'⟩
  exact fun rows => ⟨List.perm_insertionSort _ rows, List.pairwise_insertionSort _ rows⟩

/-- Reading a few numbers. -/
def float (s : Str) : Option ℚ := if s = "1.5".toList then some (3 / 2) else if s = "3".toList then some 3
  else if s = "4".toList then some 4 else none

/-- Two entries, the second one of two lines. -/
def text : List Str := ["Running".toList, "<SSE=3 x1=3 x2=4* y=3>".toList, [], "<SSE=1.5 x1=4 x2=3**".toList, "y=4>".toList]

/-- What is read. -/
def e1 : ℚ × PD := (3, [⟨"x1".toList, "3".toList, []⟩, ⟨"x2".toList, "4".toList, ['*']⟩, ⟨"y".toList, "3".toList, []⟩])

/-- The other entry. -/
def e2 : ℚ × PD :=
  (3 / 2, [⟨"x1".toList, "4".toList, []⟩, ⟨"x2".toList, "3".toList, ['*', '*']⟩, ⟨"y".toList, "4".toList, []⟩])

/-- Two files. -/
def files (p : Str) : Option (List Str) :=
  if p = "a.log".toList then some text else if p = "~/pfinder.log".toList then some ["Nothing here".toList] else none

theorem asks : Asks ["a.log".toList, "x*".toList] "a.log".toList ["x*".toList] := .inl ⟨by decide, rfl⟩
theorem asks_nothing : Asks ["a.log".toList] "a.log".toList [] := .inl ⟨by decide, rfl⟩
theorem asks_default : Asks ["x*".toList] "~/pfinder.log".toList ["x*".toList] := .inr ⟨rfl, rfl, by decide⟩

theorem complete : ∀ e ∈ [e1, e2], ∀ e' ∈ [e1, e2], ∀ n ∈ e.2.map Item.name,
    ∃ i v, get e'.2 n = some i ∧ float i.value = some v ∧ i.stars.length ≤ 2 := by
  have h : ∀ e ∈ [e1, e2], ∀ e' ∈ [e1, e2], ∀ n ∈ e.2.map Item.name,
      ((get e'.2 n).bind fun i => (float i.value).map fun _ => i.stars.length).any (· ≤ 2) = true := by decide +kernel
  intro e he e' he' n hn
  have := h e he e' he' n hn
  cases hg : get e'.2 n with
  | none => rw [hg] at this; cases this
  | some i =>
    cases hv : float i.value with
    | none => rw [hg] at this; simp [hv] at this
    | some v => exact ⟨i, v, rfl, hv, by rw [hg] at this; simpa [hv] using this⟩

/-- The table that is printed. -/
example : main float exampleFmt order id files ["a.log".toList, "x*".toList] = .table
    ["".toList, "       SSE           x1           x2".toList, "--------------------------------------".toList,
     "         4            4            4*".toList, "       1.5            4            4**".toList, "".toList] := by
  decide +kernel

end Demo

open Demo in
example := C121_arguments float exampleFmt order id ["a.log".toList, "x*".toList]

open Demo in
example := C121_table float exampleFmt exampleFmt_word order order_sorts id files _ _ _ asks (by decide) text
  (by decide +kernel) e1 [e2] (by decide +kernel) (complete e1 (by simp))

open Demo in
example := C121_starred float exampleFmt exampleFmt_word order order_sorts id files _ _ asks_nothing text
  (by decide +kernel) [e1, e2] (by simp) (by decide +kernel) (by decide +kernel) complete

open Demo in
example := C121_empty_log float exampleFmt order order_sorts id files _ _ _ asks_default ["Nothing here".toList]
  (by decide +kernel) (by decide +kernel)

open Demo in
example := C121_no_table float exampleFmt order order_sorts id files _ _ _ asks_default ["Nothing here".toList]
  (by decide +kernel) (.inr (.inl (by decide +kernel)))

/-- An entry, and then a score that is not a number. -/
example := C121_unreadable Demo.float exampleFmt Demo.order id
  (fun _ => some ["<SSE=3 x1=3>".toList, [], "<SSE=7.7.7 x1=3>".toList]) _ _ _ Demo.asks _ rfl
  [(3, [⟨"x1".toList, "3".toList, []⟩])] (by decide +kernel)

namespace Demo

/-- Printing a few numbers. -/
def fmt (v : ℚ) : Str := if v < 2 then "1.5".toList else if v < 4 then "3".toList else "4".toList

/-- Parameters and individuals. -/
def p1 : Param := ⟨"x1".toList, 0, 10⟩
def p2 : Param := ⟨"Rs".toList, 0, 4⟩
def m1 : Member := ⟨[], "3".toList, fun n => if n = "x1".toList then 3 else 4⟩
def m2 : Member := ⟨[], "1.5".toList, fun n => if n = "x1".toList then 4 else 3 / 2⟩

/-- A log. -/
def items : List (List Str × Member) := [(["Running".toList, [], "F=0.5".toList], m1), ([], m2)]

/-- The SSEs. -/
def sse (m : Member) : ℚ := (float m.sse4).getD 0

/-- The same file again and again. -/
def file (_ : Str) : Option (List Str) := some (logOf fmt [p1, p2] items)

example : logOf fmt [p1, p2] items = ["Running".toList, [], "F=0.5".toList, "<SSE=3 Rs=4** x1=3>".toList, [],
    "<SSE=1.5 Rs=1.5 x1=4>".toList, []] := by decide +kernel

theorem name_ok : ∀ p ∈ [p1, p2], IsName p.name := by
  intro p hp
  simp only [List.mem_cons, List.not_mem_nil, or_false] at hp
  rcases hp with rfl | rfl
  · exact C80_names 'x' "1".toList (by unfold Letter; decide) (by unfold Letter Digit; decide)
  · exact C80_names 'R' "s".toList (by unfold Letter; decide) (by unfold Letter Digit; decide)

theorem number_ok (v : ℚ) : IsNumber (fmt v) := by
  unfold fmt
  split_ifs
  · exact (C80_printed_numbers [] "1".toList ".5".toList [] (.inl rfl) (by unfold Digit; decide)
      (.inr ⟨"5".toList, rfl, by unfold Digit; decide⟩) (.inl rfl)).1
  · exact (C80_printed_numbers [] "3".toList [] [] (.inl rfl) (by unfold Digit; decide) (.inl rfl) (.inl rfl)).1
  · exact (C80_printed_numbers [] "4".toList [] [] (.inl rfl) (by unfold Digit; decide) (.inl rfl) (.inl rfl)).1

theorem noise_ok : ∀ x ∈ items, ∀ l ∈ x.1, Noise l := by
  have : ∀ x ∈ items, ∀ l ∈ x.1, ¬ "SSE=".toList <:+: l := by decide +kernel
  intro x hx l hl
  rintro ⟨a, c, b, rfl, -⟩
  exact this x hx _ hl ⟨a, c :: b, rfl⟩

end Demo

open Demo in
example := C121_individuals float exampleFmt exampleFmt_word order order_sorts id file _ _ _ asks (by decide) fmt [p1, p2]
  (by decide +kernel) items (by simp [items]) sse id noise_ok (by decide +kernel)
  (fun x hx p hp => ⟨name_ok p hp, number_ok _, by revert p; revert x; decide +kernel⟩) (by decide +kernel) (by unfold file; with_reducible rfl)
  (by decide +kernel)

end LggMain
end Ade
