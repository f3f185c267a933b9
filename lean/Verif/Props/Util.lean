import Verif.Model.Util
import Mathlib.Data.List.Induction
import Mathlib.Tactic.Linarith
import Mathlib.Tactic.FinCases

/-!
# Helpers: bag (C54), evaluation timer (C55), messenger (C56, C64)
-/

set_option autoImplicit false

namespace Ade

/-! ## C54 -/

namespace Bag
variable {α : Type}

/-- What should be in the bag after a history: the value of the latest `put`, unless there was a `pop`
since. -/
inductive Latest : List (Op α) → Option α → Prop
  | start : Latest [] none
  | put (h : List (Op α)) (v : α) : Latest (h ++ [.put v]) (some v)
  | peek (h : List (Op α)) (x : Option α) : Latest h x → Latest (h ++ [.peek]) x
  | pop (h : List (Op α)) : Latest (h ++ [.pop]) none

theorem run_append (b : Contents α) (os : List (Op α)) (o : Op α) :
    run b (os ++ [o]) =
      ((step (run b os).1 o).1, (run b os).2 ++ [(o, (step (run b os).1 o).2)]) := by
  induction os generalizing b with
  | nil => rfl
  | cons p os ih => simp [run, ih]

/-- C54: after every sequence of operations on a new bag, it holds the latest value placed, if any
since the last removal; a removal returns it; placing a value returns that value; and the bag is false exactly if it holds nothing. -/
theorem C54_latest (os : List (Op α)) (x : Option α) (h : Latest os x) :
    (run none os).1 = x ∧ (pop (run none os).1).2 = x ∧ (call (run none os).1 none).2 = x ∧
      (∀ v, (call (run none os).1 (some v)).2 = some v) ∧ (toBool (run none os).1 = false ↔ x = none) := by
  have key : (run none os).1 = x := by
    induction h with
    | start => rfl
    | put h v => rw [run_append]; rfl
    | peek h x _ ih => rw [run_append, ih]; rfl
    | pop h => rw [run_append]; rfl
  rw [key]
  exact ⟨rfl, rfl, rfl, fun _ => rfl, by cases x <;> simp [toBool]⟩

example := C54_latest [.put 1, .pop, .put 2, .peek] (some 2) (.peek [.put 1, .pop, .put 2] _ (.put [.put 1, .pop] 2))

/-- Every history has a latest value, so `C54_latest` covers all. -/
theorem C54_latest_exists (os : List (Op α)) : ∃ x, Latest os x := by
  induction os using List.reverseRecOn with
  | nil => exact ⟨_, .start⟩
  | append_singleton os o ih =>
    obtain ⟨x, hx⟩ := ih
    cases o with
    | put v => exact ⟨_, .put os v⟩
    | peek => exact ⟨_, .peek os x hx⟩
    | pop => exact ⟨_, .pop os⟩

/-- Values placed, in order. -/
def placed (os : List (Op α)) : List α :=
  os.filterMap fun
    | .put v => some v
    | _ => none

/-- Values returned by removals, in order. -/
def removed (rs : List (Op α × Option α)) : List α :=
  rs.filterMap fun
    | (.pop, x) => x
    | _ => none

/-- C54: the values removed are among the values placed, in the same order and each at most once per
placement. -/
theorem C54_at_most_once (os : List (Op α)) : (removed (run none os).2).Sublist (placed os) := by
  have key : ∀ (os : List (Op α)) (b : Contents α),
      (removed (run b os).2).Sublist (b.toList ++ placed os) := by
    intro os
    induction os with
    | nil => intro b; exact List.nil_sublist _
    | cons o os ih =>
      intro b
      cases o with
      | put v =>
        have h := ih (some v)
        have e1 : removed (run b (.put v :: os)).2 = removed (run (some v) os).2 := by
          simp [run, step, call, removed]
        have e2 : placed (.put v :: os) = v :: placed os := by simp [placed]
        rw [e1, e2]
        exact h.trans (List.sublist_append_right _ _)
      | peek =>
        have h := ih b
        have e1 : removed (run b (.peek :: os)).2 = removed (run b os).2 := by
          simp [run, step, call, removed]
        have e2 : placed (.peek :: os) = placed os := by simp [placed]
        rw [e1, e2]
        exact h
      | pop =>
        have h := ih none
        have e1 : removed (run b (.pop :: os)).2 = b.toList ++ removed (run none os).2 := by
          cases b <;> simp [run, step, pop, removed]
        have e2 : placed (.pop :: os) = placed os := by simp [placed]
        rw [e1, e2]
        exact (List.append_sublist_append_left _).2 (by simpa using h)
  simpa using key os none

example : removed (run none [.put 1, .put 2, .pop, .pop, .peek, .put 3, .pop]).2 = [2, 3] := by
  decide

end Bag

/-! ## C55 -/

namespace EvalTimer

/-- Average time elapsed in the calls with an ID. -/
def avgElapsed (ds : List Done) (i : ℕ) : ℚ :=
  ((ds.filter fun d => d.id = i).map fun d => d.t1 - d.t0).sum /
    (ds.filter fun d => d.id = i).length

/-- Average of the clock at the end of the calls with an ID. -/
def avgEnd (ds : List Done) (i : ℕ) : ℚ :=
  ((ds.filter fun d => d.id = i).map fun d => d.t1).sum / (ds.filter fun d => d.id = i).length

theorem record_ids (t : Timer) (d : Done) :
    (record t d).map Prod.fst =
      if d.id ∈ t.map Prod.fst then t.map Prod.fst else t.map Prod.fst ++ [d.id] := by
  unfold record
  by_cases h : (t.any fun e => e.1 == d.id) = true
  · rw [if_pos h, if_pos]
    · rw [List.map_map]
      apply List.map_congr_left
      intro e _
      simp only [Function.comp]
      split_ifs <;> rfl
    · simpa [List.any_eq_true] using h
  · rw [if_neg h, if_neg]
    · simp
    · simpa [List.any_eq_true] using h

theorem timer_snoc (ds : List Done) (d : Done) : timer (ds ++ [d]) = record (timer ds) d := by
  simp [timer]

theorem timer_mem_ids (ds : List Done) (i : ℕ) :
    i ∈ (timer ds).map Prod.fst ↔ ∃ d ∈ ds, d.id = i := by
  induction ds using List.reverseRecOn with
  | nil => simp [timer]
  | append_singleton ds d ih =>
    rw [timer_snoc, record_ids]
    split_ifs with h
    · rw [ih]
      constructor
      · rintro ⟨e, he, rfl⟩; exact ⟨e, by simp [he], rfl⟩
      · rintro ⟨e, he, rfl⟩
        rcases List.mem_append.1 he with he | he
        · exact ⟨e, he, rfl⟩
        · rw [List.mem_singleton] at he
          subst he
          exact ih.1 (by simpa using h) |> fun ⟨x, hx⟩ => ⟨x, hx⟩
    · rw [List.mem_append, ih]
      constructor
      · rintro (⟨e, he, rfl⟩ | he)
        · exact ⟨e, by simp [he], rfl⟩
        · exact ⟨d, by simp, (List.mem_singleton.1 he).symm⟩
      · rintro ⟨e, he, rfl⟩
        rcases List.mem_append.1 he with he | he
        · exact Or.inl ⟨e, he, rfl⟩
        · rw [List.mem_singleton] at he
          subst he
          exact Or.inr (by simp)

theorem timer_nodup (ds : List Done) : ((timer ds).map Prod.fst).Nodup := by
  induction ds using List.reverseRecOn with
  | nil => simp [timer]
  | append_singleton ds d ih =>
    rw [timer_snoc, record_ids]
    split_ifs with h
    · exact ih
    · exact List.nodup_append.2 ⟨ih, by simp, by
        intro a ha b hb
        rw [List.mem_singleton] at hb
        subst hb
        rintro rfl
        exact h ha⟩

theorem timer_entry (ds : List Done) : ∀ e ∈ timer ds,
    e.2.1 = ((ds.filter fun d => d.id = e.1).map fun d => d.t1).sum ∧
    e.2.2 = (ds.filter fun d => d.id = e.1).length := by
  induction ds using List.reverseRecOn with
  | nil => simp [timer]
  | append_singleton ds d ih =>
    intro e he
    rw [timer_snoc] at he
    unfold record at he
    by_cases h : ((timer ds).any fun e => e.1 == d.id) = true
    · rw [if_pos h] at he
      obtain ⟨a, ha, rfl⟩ := List.mem_map.1 he
      have := ih a ha
      by_cases hd : a.1 = d.id
      · simp only [hd, if_true] at this ⊢
        simp [this.1, this.2]
      · have hd' : ¬ d.id = a.1 := fun h => hd h.symm
        simp only [hd, if_false]
        simp [this.1, this.2, hd']
    · rw [if_neg h] at he
      have hno : ∀ x ∈ ds, ¬ x.id = d.id := by
        intro x hx hxd
        apply h
        have : d.id ∈ (timer ds).map Prod.fst := (timer_mem_ids ds d.id).2 ⟨x, hx, hxd⟩
        simpa [List.any_eq_true] using this
      rcases List.mem_append.1 he with he | he
      · have hne : ¬ d.id = e.1 := by
          intro hde
          apply h
          rw [List.any_eq_true]
          exact ⟨e, he, by simp [hde]⟩
        simp [ih e he, hne]
      · rw [List.mem_singleton] at he
        subst he
        have hf : (ds.filter fun x => x.id = d.id) = [] := by
          rw [List.filter_eq_nil_iff]
          intro x hx
          simpa using hno x hx
        simp [hf]

/-- C55, as far as it holds: iteration yields every ID that was timed exactly once, in ascending order of
the average *clock at the end* of its calls.

The full property has the average elapsed time instead; see `C55_fails`. -/
theorem C55_order_by_end_partial (ds : List Done) :
    (iter (timer ds)).Nodup ∧ (∀ i, i ∈ iter (timer ds) ↔ ∃ d ∈ ds, d.id = i) ∧
    (iter (timer ds)).Pairwise fun i j => avgEnd ds i ≤ avgEnd ds j := by
  have hperm := (List.perm_insertionSort (fun a b : ℕ × ℚ × ℕ => avg a ≤ avg b) (timer ds))
  refine ⟨(hperm.map Prod.fst).nodup_iff.2 (timer_nodup ds), ?_, ?_⟩
  · intro i
    rw [← timer_mem_ids]
    exact (hperm.map Prod.fst).mem_iff
  · unfold iter
    rw [List.pairwise_map]
    have htot : Std.Total (fun a b : ℕ × ℚ × ℕ => avg a ≤ avg b) := ⟨fun a b => le_total _ _⟩
    have htr : IsTrans (ℕ × ℚ × ℕ) (fun a b => avg a ≤ avg b) := ⟨fun a b c => le_trans⟩
    have hs := List.pairwise_insertionSort (fun a b : ℕ × ℚ × ℕ => avg a ≤ avg b) (timer ds)
    refine hs.imp_of_mem ?_
    intro a b ha hb hab
    have ea := timer_entry ds a (hperm.mem_iff.1 ha)
    have eb := timer_entry ds b (hperm.mem_iff.1 hb)
    unfold avgEnd
    rw [← ea.1, ← ea.2, ← eb.1, ← eb.2]
    exact hab

example : iter (timer [⟨7, 0, 5⟩, ⟨3, 1, 2⟩, ⟨7, 0, 1⟩]) = [3, 7] := by decide +kernel

/-- C55 fails: part 2 took one second, part 1 took ten seconds; part 1 comes first because it ended
earlier. -/
theorem C55_fails :
    let ds : List Done := [⟨1, 0, 10⟩, ⟨2, 20, 21⟩]
    iter (timer ds) = [1, 2] ∧ avgElapsed ds 1 = 10 ∧ avgElapsed ds 2 = 1 := by decide +kernel

/-- C55 fails in general: whatever the durations of two parts, the one whose only call ended earlier
comes first. -/
theorem C55_duration_irrelevant (d e : Done) (hne : d.id ≠ e.id) (h : d.t1 < e.t1) :
    iter (timer [d, e]) = [d.id, e.id] := by
  have h1 : timer [d, e] = [(d.id, d.t1, 1), (e.id, e.t1, 1)] := by
    simp [timer, record, hne]
  have h2 : avg (d.id, d.t1, 1) ≤ avg (e.id, e.t1, 1) := by
    simp [avg]; exact h.le
  simp [h1, iter, List.insertionSort, h2]

example := C55_duration_irrelevant ⟨7, 0, 5⟩ ⟨3, 6, 7⟩ (by decide) (by decide +kernel)

end EvalTimer

/-! ## C56 -/

namespace Messenger

/-- Direct output: a line or a single character. -/
inductive Op where
  | line (text : List Char)
  | char (c : Char)

/-- One output operation. -/
def put (s : St) : Op → St
  | .line t => writeLine s t
  | .char c => writeChar s c

/-- What is in file `f` after some output operations on a messenger that has just been pointed to it. -/
def output (f : ℕ) (ops : List Op) : List Char :=
  (ops.foldl put (fhSet (new fun _ => false) (some f)).1).out f

/-- State after some output operations to a working file `f`. -/
def after (f : ℕ) (ops : List Op) : St := ops.foldl put (fhSet (new fun _ => false) (some f)).1

theorem after_fields (f : ℕ) (ops : List Op) :
    (after f ops).fh = some f ∧ (∀ g, (after f ops).broken g = false) ∧
    (∀ g, (after f ops).closed g = false) := by
  induction ops using List.reverseRecOn with
  | nil => simp [after, fhSet, new]
  | append_singleton ops o ih =>
    obtain ⟨h1, h2, h3⟩ := ih
    have e : after f (ops ++ [o]) = put (after f ops) o := by simp [after]
    rw [e]
    cases o with
    | line t =>
      simp only [put, writeLine, h1, h2, h3, Bool.or_self, Bool.false_eq_true, if_false]
      split_ifs <;> simp [write, h2, h3]
    | char c =>
      simp only [put, writeChar, h1, h2, h3, Bool.or_self, Bool.false_eq_true, if_false]
      simp [write, h1, h2, h3]

theorem output_line (f : ℕ) (ops : List Op) (t : List Char) :
    output f (ops ++ [.line t]) =
      (if (after f ops).newlineNeeded then output f ops ++ ['\n'] else output f ops) ++ t ++ ['\n'] ∧
    (after f (ops ++ [.line t])).newlineNeeded = false := by
  obtain ⟨h1, h2, h3⟩ := after_fields f ops
  have e : after f (ops ++ [.line t]) = writeLine (after f ops) t := by simp [after, put]
  have e2 : output f (ops ++ [.line t]) = (writeLine (after f ops) t).out f := by
    rw [← e]; rfl
  have e3 : output f ops = (after f ops).out f := rfl
  rw [e2, e, e3]
  simp only [writeLine, h1, h2, h3, Bool.or_self, Bool.false_eq_true, if_false]
  cases hn : (after f ops).newlineNeeded <;> simp [write]

theorem output_char (f : ℕ) (ops : List Op) (c : Char) :
    output f (ops ++ [.char c]) = output f ops ++ [c] ∧
    (after f (ops ++ [.char c])).newlineNeeded = true := by
  obtain ⟨h1, h2, h3⟩ := after_fields f ops
  have e : after f (ops ++ [.char c]) = writeChar (after f ops) c := by simp [after, put]
  have e2 : output f (ops ++ [.char c]) = (writeChar (after f ops) c).out f := by
    rw [← e]; rfl
  have e3 : output f ops = (after f ops).out f := rfl
  rw [e2, e, e3]
  simp [writeChar, h1, h2, h3, write]

theorem output_line_start (f : ℕ) (ops : List Op) (h : (after f ops).newlineNeeded = false) :
    output f ops = [] ∨ ∃ a, output f ops = a ++ ['\n'] := by
  induction ops using List.reverseRecOn with
  | nil => exact Or.inl rfl
  | append_singleton ops o _ =>
    cases o with
    | line t => exact Or.inr ⟨_, (output_line f ops t).1⟩
    | char c => rw [(output_char f ops c).2] at h; exact absurd h (by simp)

/-- C56: output appears in the order of the calls: nothing written earlier is ever changed. -/
theorem C56_in_order (f : ℕ) (ops more : List Op) : output f ops <+: output f (ops ++ more) := by
  induction more using List.reverseRecOn with
  | nil => simp
  | append_singleton more o ih =>
    rw [← List.append_assoc]
    refine ih.trans ?_
    cases o with
    | line t =>
      rw [(output_line f _ t).1]
      split_ifs
      · exact ⟨'\n' :: t ++ ['\n'], by simp⟩
      · exact ⟨t ++ ['\n'], by simp⟩
    | char c =>
      rw [(output_char f _ c).1]
      exact List.prefix_append _ _

/-- C56: a line message gets a line of its own: it is written at the beginning of the file or after a
newline, and followed by a newline. If characters were written since the last line, a newline is
inserted before it; otherwise nothing is. -/
theorem C56_own_line (f : ℕ) (ops : List Op) (t : List Char) :
    ∃ a, output f (ops ++ [.line t]) = a ++ t ++ ['\n'] ∧ (a = [] ∨ ∃ b, a = b ++ ['\n']) ∧
      ((∃ pre c, ops = pre ++ [.char c]) → a = output f ops ++ ['\n']) ∧
      (¬ (∃ pre c, ops = pre ++ [.char c]) → a = output f ops) := by
  have hn : (after f ops).newlineNeeded = true ↔ ∃ pre c, ops = pre ++ [.char c] := by
    induction ops using List.reverseRecOn with
    | nil => simp [after, fhSet, new]
    | append_singleton ops o _ =>
      cases o with
      | line t => simp [(output_line f ops t).2]
      | char c => simp [(output_char f ops c).2]
  rw [(output_line f ops t).1]
  by_cases h : (after f ops).newlineNeeded = true
  · refine ⟨output f ops ++ ['\n'], by rw [if_pos h], Or.inr ⟨_, rfl⟩, fun _ => rfl, ?_⟩
    intro h'
    exact absurd (hn.1 h) h'
  · refine ⟨output f ops, by rw [if_neg h],
      output_line_start f ops (by simpa using h), ?_, fun _ => rfl⟩
    intro h'
    exact absurd (hn.2 h') h

/-- C56: characters are appended as they are. -/
theorem C56_chars (f : ℕ) (ops : List Op) (c : Char) :
    output f (ops ++ [.char c]) = output f ops ++ [c] := (output_char f ops c).1

example : output 0 [.line "ab".toList, .char 'x', .char 'y', .line "cd".toList, .line "ef".toList] =
    "ab\nxy\ncd\nef\n".toList := by decide +kernel

/-- C56: nothing at all is written while no file is set. -/
theorem C56_no_file (s : St) (o : Op) (h : s.fh = none) : put s o = s := by
  cases o <;> simp [put, writeLine, writeChar, h]

example := C56_no_file (new fun _ => false) (.char 'x') rfl

/-- C56: a file that cannot be written to is dropped, and closed unless it is the standard output; the
call does not raise and other files are not changed. -/
theorem C56_broken_file (s : St) (o : Op) (f : ℕ) (h : s.fh = some f)
    (hb : s.broken f = true ∨ s.closed f = true) :
    (put s o).fh = none ∧ (put s o).out = s.out ∧ (f ≠ 0 → (put s o).closed f = true) ∧
      ∀ g, g = 0 ∨ g ≠ f → (put s o).closed g = s.closed g := by
  by_cases h0 : f = 0
  · subst h0
    cases o <;> rcases hb with hb | hb <;> simp [put, writeLine, writeChar, h, hb, fhSet]
  · cases o <;> rcases hb with hb | hb <;> simp [put, writeLine, writeChar, h, hb, fhSet, h0] <;>
      exact ⟨fun h' => absurd h'.symm h0, fun a h1 h2 => absurd h2 h1⟩

example : (put (fhSet (new fun f => f = 3) (some 3)).1 (.char 'x')).closed 3 = true := by
  decide +kernel

variable (braces : List Char → ℕ) (fmt : List Char → List Arg → Option (List Char))

/-- C56: a single text of two or more characters is a line message, one character is a character (except
a hyphen, which draws a line); neither ever raises, whatever the state. -/
theorem C56_single_text (s : St) (t : List Char) :
    (2 ≤ t.length → call braces fmt s [.str t] = some (writeLine s t)) ∧
    (∀ c, c ≠ '-' → t = [c] → call braces fmt s [.str t] = some (writeChar s c)) := by
  constructor
  · intro h
    match t, h with
    | a :: b :: r, _ => rfl
  · rintro c hc rfl
    simp [call, select, emit, selectsFile, hc]

/-- C56: `0` or `-1` before a text of two or more characters (without format fields) puts a blank line
before it: both write the same. -/
theorem C56_blank_line_before (ops : List Op) (f : ℕ) (t : List Char) (ht : 2 ≤ t.length)
    (hf : fmt t [] = some t) :
    ∃ s1 s2, call braces fmt (after f ops) [.int 0, .str t] = some s1 ∧
      call braces fmt (after f ops) [.int (-1), .str t] = some s2 ∧
      s1.out f = output f (ops ++ [.line []]) ++ t ++ ['\n'] ∧ s2.out f = s1.out f := by
  refine ⟨writeLine (writeLine (after f ops) []) t, writeLine (after f ops) ('\n' :: t), ?_, ?_, ?_⟩
  · match t, ht with
    | a :: b :: r, _ => rfl
  · have h1 : t ≠ ['-'] := by rintro rfl; simp at ht
    have hp : takePrefix 2 [.int (-1), .str t] = some (['\n'], [.str t]) := by
      simp [takePrefix, prefixOf, h1]
    have hs : takeSuffix (braces t) [.str t] = ([], [.str t]) := by
      simp [takeSuffix]
    have hc : call braces fmt (after f ops) [.int (-1), .str t] =
        match takePrefix 2 [.int (-1), .str t] with
        | some (p, .str t :: rest) =>
          let (x, rrest) := takeSuffix (braces t) (rest.reverse ++ [.str t])
          match rrest.reverse with
          | .str t :: rest => (fmt t rest).map fun y => writeLine (after f ops) (p ++ y ++ x)
          | _ => none
        | _ => none := rfl
    rw [hc, hp]
    simp [hs, hf]
  · have e1 : writeLine (writeLine (after f ops) []) t = after f (ops ++ [.line []] ++ [.line t]) := by
      simp [after, put]
    have e2 : writeLine (after f ops) ('\n' :: t) = after f (ops ++ [.line ('\n' :: t)]) := by
      simp [after, put]
    rw [e1, e2]
    have h1 := (output_line f (ops ++ [.line []]) t).1
    have h2 := (output_line f ops []).1
    have h3 := (output_line f ops ('\n' :: t)).1
    have h4 := (output_line f ops []).2
    change output f _ = _ ∧ output f _ = output f _
    rw [h4] at h1
    simp only [Bool.false_eq_true, if_false] at h1
    refine ⟨h1, ?_⟩
    rw [h1, h2, h3]
    simp

example : (2 : ℕ) ≤ "Stopped".toList.length := by decide

/-- A row of hyphens. -/
def row : List Char := List.replicate 120 '-'

/-- What a prefix argument stands for: a positive number and `True` indent, other numbers, `False` and a hyphen give a blank
line and a row of hyphens. -/
inductive Pre : Arg → List Char → Prop
  | indent (n : ℕ) : 0 < n → Pre (.int n) (List.replicate n ' ')
  | blank (n : ℤ) : n ≤ 0 → Pre (.int n) ['\n']
  | yes : Pre (.bool true) [' ']
  | no : Pre (.bool false) ['\n']
  | hyphens : Pre (.str ['-']) ('\n' :: row ++ ['\n'])

/-- What a suffix argument stands for. -/
inductive Post : Arg → List Char → Prop
  | zero : Post (.int 0) ['\n']
  | minus : Post (.int (-1)) ['\n']
  | no : Post (.bool false) ['\n']
  | hyphens : Post (.str ['-']) ('\n' :: row)

theorem Pre.prefixOf {a : Arg} {x : List Char} (h : Pre a x) : prefixOf a = some x := by
  cases h with
  | indent n hn =>
    have : (n : ℤ) > 0 := by omega
    unfold Messenger.prefixOf
    simp only [if_pos this, Int.toNat_natCast]
  | blank n hn =>
    have : ¬ n > 0 := by omega
    simp [Messenger.prefixOf, this]
  | yes => rfl
  | no => rfl
  | hyphens => simp [Messenger.prefixOf, dashes, row]

theorem Post.suffixOf {a : Arg} {x : List Char} (h : Post a x) : suffixOf a = some x := by
  cases h with
  | zero => rfl
  | minus => rfl
  | no => rfl
  | hyphens => simp [Messenger.suffixOf, dashes, row]

theorem takeSuffix_post (n : ℕ) (post : List (Arg × List Char)) (h : ∀ p ∈ post, Post p.1 p.2)
    (rest : List Arg) (hr : rest.length = n + 1) :
    takeSuffix n (post.map Prod.fst ++ rest) = (post.flatMap Prod.snd, rest) := by
  induction post with
  | nil =>
    cases rest with
    | nil => simp at hr
    | cons a rest =>
      have : ¬ (a :: rest).length > n + 1 := by omega
      simp only [List.map_nil, List.nil_append, takeSuffix, if_neg this]
      rfl
  | cons p post ih =>
    have h1 : (p.1 :: (post.map Prod.fst ++ rest)).length > n + 1 := by simp; omega
    rw [List.map_cons, List.cons_append]
    simp only [takeSuffix, if_pos h1, (h p (by simp)).suffixOf]
    rw [ih fun q hq => h q (by simp [hq])]
    rfl

/-- C56: a text with its format arguments, up to two prefix arguments before it and any number of suffix
arguments after it make one line: what the prefixes stand for, the formatted text, and what the suffixes
stand for (the last one first). The first argument must not be one that selects a file, or `0` or `1`. -/
theorem C56_layout (s : St) (pre post : List (Arg × List Char)) (t y : List Char) (args : List Arg)
    (hpre : ∀ p ∈ pre, Pre p.1 p.2) (hpost : ∀ p ∈ post, Post p.1 p.2) (h2 : pre.length ≤ 2)
    (h0 : ∀ x, pre.head? = some (.int 0, x) → False) (h1 : ∀ x, pre.head? = some (.int 1, x) → False)
    (hb : ∀ b x, pre.head? = some (.bool b, x) → False)
    (ht : t ≠ ['-']) (hargs : args.length = braces t) (hy : fmt t args = some y)
    (hlen : pre ≠ [] ∨ args ≠ [] ∨ post ≠ []) :
    call braces fmt s (pre.map Prod.fst ++ .str t :: args ++ post.map Prod.fst) =
      some (writeLine s (pre.flatMap Prod.snd ++ y ++ post.reverse.flatMap Prod.snd)) := by
  have hsel : select s (pre.map Prod.fst ++ .str t :: args ++ post.map Prod.fst) =
      (s, pre.map Prod.fst ++ .str t :: args ++ post.map Prod.fst) := by
    cases pre with
    | nil => rfl
    | cons p pre =>
      have hp := hpre p (by simp)
      have : selectsFile p.1 = false := by
        obtain ⟨a, x⟩ := p
        cases hp with
        | indent n hn =>
          have e0 : (n : ℤ) ≠ 0 := by omega
          have e1 : (n : ℤ) ≠ 1 := by
            intro hc
            exact h1 (List.replicate n ' ') (by rw [hc]; rfl)
          simp [selectsFile]
          omega
        | blank n hn =>
          have e0 : n ≠ 0 := by
            intro hc
            exact h0 ['\n'] (by rw [hc]; rfl)
          have e1 : n ≠ 1 := by omega
          simp [selectsFile, e0, e1]
        | yes => exact absurd rfl (hb true _)
        | no => exact absurd rfl (hb false _)
        | hyphens => rfl
      simp [select, this]
  have hpx : takePrefix 2 (pre.map Prod.fst ++ .str t :: args ++ post.map Prod.fst) =
      some (pre.flatMap Prod.snd, .str t :: args ++ post.map Prod.fst) := by
    have ht' : prefixOf (.str t) = none := by simp [Messenger.prefixOf, ht]
    match pre, h2, hpre with
    | [], _, _ => simp [takePrefix, ht']
    | [p], _, hpre => simp [takePrefix, ht', (hpre p (by simp)).prefixOf]
    | [p, q], _, hpre =>
      simp [takePrefix, (hpre p (by simp)).prefixOf, (hpre q (by simp)).prefixOf]
  have hsx : takeSuffix (braces t) ((args ++ post.map Prod.fst).reverse ++ [.str t]) =
      (post.reverse.flatMap Prod.snd, args.reverse ++ [.str t]) := by
    have := takeSuffix_post (braces t) post.reverse (fun p hp => hpost p (by simpa using hp))
      (args.reverse ++ [.str t]) (by simp [hargs])
    rw [← this, List.reverse_append, List.map_reverse, List.append_assoc]
  have hem : ∀ as : List Arg, 2 ≤ as.length → emit braces fmt s as =
      match takePrefix 2 as with
      | some (p, .str t :: rest) =>
        let (x, rrest) := takeSuffix (braces t) (rest.reverse ++ [.str t])
        match rrest.reverse with
        | .str t :: rest => (fmt t rest).map fun y => writeLine s (p ++ y ++ x)
        | _ => none
      | _ => none := by
    intro as has
    match as, has with
    | .none :: b :: r, _ => rfl
    | .bool true :: b :: r, _ => rfl
    | .bool false :: b :: r, _ => rfl
    | .file f :: b :: r, _ => rfl
    | .int n :: b :: r, _ => rfl
    | .str [] :: b :: r, _ => rfl
    | .str [c] :: b :: r, _ => rfl
    | .str (c :: d :: u) :: b :: r, _ => rfl
  have hl : 2 ≤ (pre.map Prod.fst ++ .str t :: args ++ post.map Prod.fst).length := by
    have : 1 ≤ pre.length ∨ 1 ≤ args.length ∨ 1 ≤ post.length := by
      rcases hlen with h | h | h
      · exact Or.inl (List.length_pos_of_ne_nil h)
      · exact Or.inr (Or.inl (List.length_pos_of_ne_nil h))
      · exact Or.inr (Or.inr (List.length_pos_of_ne_nil h))
    simp only [List.length_append, List.length_cons, List.length_map]
    omega
  unfold call
  rw [hsel]
  simp only
  rw [hem _ hl, hpx]
  simp only [List.cons_append, hsx]
  simp [hy]

example : (call (fun _ => 1) (fun t _ => some t) (after 3 [])
      [.int 2, .str "ab".toList, .int 7, .int 0]).map (·.out 3) = some "  ab\n\n".toList ∧
    Pre (.int 2) "  ".toList ∧ Post (.int 0) ['\n'] := by
  exact ⟨by decide +kernel, .indent 2 (by omega), .zero⟩

/-- C56: a last argument that is none of those (such as any number but `0` and `-1`) is a further format argument. -/
theorem C56_no_suffix (s : St) (t : List Char) (args : List Arg) (a : Arg) (ht : t ≠ ['-']) (ha : ∀ x, ¬ Post a x)
    (hargs : args.length = braces t) :
    call braces fmt s (.str t :: args ++ [a]) = (fmt t (args ++ [a])).map (writeLine s) := by
  have hs : suffixOf a = none := by
    cases a with
    | none => rfl
    | file f => rfl
    | bool b => cases b with
      | true => rfl
      | false => exact absurd .no (ha ['\n'])
    | int n =>
      have h0 : n ≠ 0 := fun h => ha ['\n'] (h ▸ .zero)
      have h1 : n ≠ -1 := fun h => ha ['\n'] (h ▸ .minus)
      simp [Messenger.suffixOf, h0, h1]
    | str u =>
      have h : u ≠ ['-'] := fun h => ha ('\n' :: row) (h ▸ .hyphens)
      simp [Messenger.suffixOf, h]
  have ht' : prefixOf (.str t) = none := by simp [Messenger.prefixOf, ht]
  have hsel : select s (.str t :: args ++ [a]) = (s, .str t :: args ++ [a]) := rfl
  have hpx : takePrefix 2 (.str t :: args ++ [a]) = some ([], .str t :: args ++ [a]) := by simp [takePrefix, ht']
  have hsx : takeSuffix (braces t) ((args ++ [a]).reverse ++ [.str t]) = ([], (args ++ [a]).reverse ++ [.str t]) := by
    rw [List.reverse_append, List.reverse_singleton, List.singleton_append, List.cons_append]
    have h1 : (a :: (args.reverse ++ [Arg.str t])).length > braces t + 1 := by simp [hargs]
    simp only [takeSuffix, if_pos h1, hs]
  have hem : ∀ (b : Arg) (r : List Arg), emit braces fmt s (.str t :: b :: r) =
      match takePrefix 2 (.str t :: b :: r) with
      | some (p, .str t :: rest) =>
        let (x, rrest) := takeSuffix (braces t) (rest.reverse ++ [.str t])
        match rrest.reverse with
        | .str t :: rest => (fmt t rest).map fun y => writeLine s (p ++ y ++ x)
        | _ => none
      | _ => none := by
    intro b r
    match t with
    | [] => rfl
    | [c] => rfl
    | c :: d :: u => rfl
  have hne : ∃ b r, args ++ [a] = b :: r := by cases args <;> simp
  obtain ⟨b, r, hbr⟩ := hne
  unfold call
  rw [hsel]
  dsimp only
  rw [List.cons_append] at hpx ⊢
  rw [hbr] at hpx hsx ⊢
  rw [hem, hpx]
  dsimp only
  rw [hsx]
  simp

example := C56_no_suffix (fun _ => 1) (fun t _ => some t) (after 3 []) "ab".toList [.int 7] (.int 2) (by decide)
  (by rintro x ⟨⟩) rfl

/-- C56: an argument that selects a file: `True` is the standard output, `False` and `None` stop the output,
a file is that file. The file used before is closed unless it is the standard output or the same; nothing is
written. -/
theorem C56_select_file (s : St) (a : Arg) (target : Option ℕ)
    (ha : (a = .bool true ∧ target = some 0) ∨ (a = .bool false ∧ target = none) ∨
      (a = .none ∧ target = none) ∨ ∃ f, a = .file f ∧ target = some f) :
    ∃ s', call braces fmt s [a] = some s' ∧ s'.fh = target ∧ s'.out = s.out ∧
      ∀ f, s'.closed f = true ↔ s.closed f = true ∨ (s.fh = some f ∧ f ≠ 0 ∧ target ≠ some f) := by
  have key : ∀ t : Option ℕ, (fhSet s t).1.fh = t ∧ (fhSet s t).1.out = s.out ∧
      ∀ f, (fhSet s t).1.closed f = true ↔
        s.closed f = true ∨ (s.fh = some f ∧ f ≠ 0 ∧ t ≠ some f) := by
    intro t
    unfold fhSet
    by_cases h : t = s.fh
    · rw [if_pos h]
      refine ⟨h.symm, rfl, fun f => ⟨Or.inl, ?_⟩⟩
      rintro (hc | ⟨h1, -, h3⟩)
      · exact hc
      · exact absurd (h.trans h1) h3
    · rw [if_neg h]
      refine ⟨rfl, rfl, fun f => ?_⟩
      cases hs : s.fh with
      | none => simp
      | some g =>
        simp only
        by_cases hg : g = 0
        · rw [if_pos hg]
          constructor
          · exact Or.inl
          · rintro (hc | ⟨h1, h2, -⟩)
            · exact hc
            · exact absurd ((Option.some.inj h1).symm.trans hg) h2
        · rw [if_neg hg]
          by_cases hf : f = g
          · subst hf
            have : t ≠ some f := by rw [← hs]; exact h
            simp [hg, this]
          · rw [if_neg hf]
            constructor
            · exact Or.inl
            · rintro (hc | ⟨h1, -, -⟩)
              · exact hc
              · exact absurd (Option.some.inj h1).symm hf
  rcases ha with ⟨rfl, rfl⟩ | ⟨rfl, rfl⟩ | ⟨rfl, rfl⟩ | ⟨f, rfl, rfl⟩
  · exact ⟨_, rfl, key _⟩
  · exact ⟨_, rfl, key _⟩
  · exact ⟨_, rfl, key _⟩
  · exact ⟨_, rfl, key _⟩

example := C56_select_file (fun _ => 1) (fun t _ => some t) (after 3 []) (.file 5) (some 5)
  (.inr (.inr (.inr ⟨5, rfl, rfl⟩)))

/-- C56: `None`, `False`, `0` or an empty text as the only argument after the file end the line there, and nothing is written
elsewhere; another number, which cannot be written, raises. -/
theorem C56_only_newline (f : ℕ) (ops : List Op) (a : Arg) :
    (a = .none ∨ a = .bool false ∨ a = .int 0 ∨ a = .str [] →
      ∃ s', call braces fmt (after f ops) [.file f, a] = some s' ∧ s'.out f = output f ops ++ ['\n'] ∧
        ∀ g, g ≠ f → s'.out g = (after f ops).out g) ∧
    (∀ n : ℤ, n ≠ 0 → a = .int n → call braces fmt (after f ops) [.file f, a] = none) := by
  have hfh : (fhSet (after f ops) (some f)).1 = after f ops := by
    unfold fhSet
    rw [if_pos (after_fields f ops).1.symm]
  constructor
  · intro h
    refine ⟨writeChar (after f ops) '\n', ?_, ?_, ?_⟩
    · have e : call braces fmt (after f ops) [.file f, a] = emit braces fmt (fhSet (after f ops) (some f)).1 [a] := rfl
      rw [e, hfh]
      rcases h with rfl | rfl | rfl | rfl <;> rfl
    · rw [← C56_chars f ops '\n']
      have e : after f (ops ++ [.char '\n']) = writeChar (after f ops) '\n' := by simp [after, put]
      rw [← e]
      rfl
    · intro g hg
      unfold writeChar
      split
      · rfl
      · rename_i f' hf'
        rw [(after_fields f ops).1] at hf'
        have : f = f' := Option.some.inj hf'
        subst this
        split_ifs
        · unfold fhSet; split_ifs <;> rfl
        · simp [write, hg]
  · rintro n hn rfl
    have e : call braces fmt (after f ops) [.file f, .int n] = emit braces fmt (fhSet (after f ops) (some f)).1 [.int n] := rfl
    rw [e]
    simp [emit, hn]

example := C56_only_newline (fun _ => 0) (fun t _ => some t) 3 [.line "ab".toList] (.int 0)

/-- A leading `1` does not indent by one space as other positive numbers do: it is taken for `True`,
and two newlines are written. -/
theorem C56_one_not_indented (f : ℕ) :
    (call (fun _ => 0) (fun t _ => some t) (after f []) [.int 1, .str ['a', 'b']]).map (·.out f) =
      some ['\n', '\n', 'a', 'b', '\n'] ∧
    (call (fun _ => 0) (fun t _ => some t) (after f []) [.int 2, .str ['a', 'b']]).map (·.out f) =
      some [' ', ' ', 'a', 'b', '\n'] := by
  simp [call, select, emit, selectsFile, setFh, after, fhSet, new, writeLine, write, takePrefix, prefixOf,
    takeSuffix]

/-! ## C64: was a line written? -/

/-- All operations of a messenger that do not raise. -/
inductive Any where
  | call (args : List Arg)
  | line (text : List Char)
  | char (c : Char)
  | ask

/-- One operation, and its answer if it asks whether a line was written. -/
def anyStep (s : St) : Any → St × Option Bool
  | .call args => ((call braces fmt s args).getD s, none)
  | .line t => (writeLine s t, none)
  | .char c => (writeChar s c, none)
  | .ask => ((askLineWritten s).1, some (askLineWritten s).2)

/-- Answers given in a sequence of operations. -/
def answers (s : St) : List Any → List Bool
  | [] => []
  | o :: os =>
    let r := anyStep braces fmt s o
    r.2.toList ++ answers r.1 os

theorem fhSet_flag (s : St) (x : Option ℕ) : (fhSet s x).1.lineWasWritten = s.lineWasWritten := by
  unfold fhSet
  split_ifs <;> rfl

theorem writeLine_flag (s : St) (t : List Char) :
    (writeLine s t).lineWasWritten = s.lineWasWritten := by
  unfold writeLine
  cases s.fh with
  | none => rfl
  | some f =>
    simp only
    split_ifs
    · rw [fhSet_flag]
    · rfl
    · rfl

theorem writeChar_flag (s : St) (c : Char) :
    (writeChar s c).lineWasWritten = s.lineWasWritten := by
  unfold writeChar
  cases s.fh with
  | none => rfl
  | some f =>
    simp only
    split_ifs
    · rw [fhSet_flag]
    · rfl

theorem setFh_flag (s : St) (a : Arg) : (setFh s a).1.lineWasWritten = s.lineWasWritten := by
  cases a <;> simp [setFh, fhSet_flag, writeLine_flag]

theorem emit_flag (s s' : St) (args : List Arg) (h : emit braces fmt s args = some s') :
    s'.lineWasWritten = s.lineWasWritten := by
  unfold emit at h
  split at h
  case h_1 => simp only [Option.some.injEq] at h; rw [h]
  case h_2 => simp only [Option.some.injEq] at h; rw [← h, writeChar_flag]
  case h_3 =>
    simp only [Option.some.injEq] at h
    rw [← h]
    split_ifs
    · exact writeLine_flag _ _
    · exact writeChar_flag _ _
  case h_4 => simp only [Option.some.injEq] at h; rw [← h, writeLine_flag]
  case h_5 => simp only [Option.some.injEq] at h; rw [← h, writeChar_flag]
  case h_6 => simp only [Option.some.injEq] at h; rw [← h, writeChar_flag]
  case h_7 =>
    split_ifs at h
    simp only [Option.some.injEq] at h
    rw [← h, writeChar_flag]
  case h_8 => simp at h
  case h_9 =>
    split at h
    · simp only at h
      split at h
      · rw [Option.map_eq_some_iff] at h
        obtain ⟨y, _, rfl⟩ := h
        exact writeLine_flag _ _
      · simp at h
    · simp at h

theorem call_flag (s s' : St) (args : List Arg) (h : call braces fmt s args = some s') :
    s'.lineWasWritten = s.lineWasWritten := by
  rw [emit_flag braces fmt _ s' _ h]
  cases args with
  | nil => rfl
  | cons a rest =>
    unfold select
    simp only
    split_ifs
    · exact setFh_flag s a
    · rfl

/-- C64 fails: `lineWritten` never tells that a line was written, whatever was written before. -/
theorem C64_never_true (broken : ℕ → Bool) (os : List Any) :
    ∀ b ∈ answers braces fmt (new broken) os, b = false := by
  have key : ∀ (os : List Any) (s : St), s.lineWasWritten = false →
      ∀ b ∈ answers braces fmt s os, b = false := by
    intro os
    induction os with
    | nil => intro s _ b hb; simp [answers] at hb
    | cons o os ih =>
      intro s hs b hb
      simp only [answers, List.mem_append] at hb
      have hs' : (anyStep braces fmt s o).1.lineWasWritten = false := by
        cases o with
        | call args =>
          simp only [anyStep]
          cases h : call braces fmt s args with
          | none => exact hs
          | some s' => exact (call_flag braces fmt s s' args h).trans hs
        | line t => simp only [anyStep, writeLine_flag, hs]
        | char c => simp only [anyStep, writeChar_flag, hs]
        | ask => rfl
      rcases hb with hb | hb
      · cases o <;> simp [anyStep, askLineWritten] at hb
        rw [hb, hs]
      · exact ih _ hs' b hb
  exact key os _ rfl

example := C64_never_true (fun _ => 0) (fun t _ => some t) (fun _ => false)
  [.call [.bool true], .line "ab".toList, .ask]

/-- C64, as far as it holds: if no line was written since the last time it was asked, the answer is
no. -/
theorem C64_no_line_no_partial (s : St) (cs : List Char) :
    (askLineWritten (cs.foldl writeChar (askLineWritten s).1)).2 = false := by
  have : ∀ (cs : List Char) (t : St), (cs.foldl writeChar t).lineWasWritten = t.lineWasWritten := by
    intro cs
    induction cs with
    | nil => intro t; rfl
    | cons c cs ih => intro t; rw [List.foldl_cons, ih, writeChar_flag]
  simp [askLineWritten, this]

example : answers (fun _ => 0) (fun t _ => some t) (new fun _ => false)
    [.call [.bool true], .line "ab".toList, .ask] = [false] := by decide +kernel

end Messenger
end Ade
