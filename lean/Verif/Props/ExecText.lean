import Mathlib.Data.List.Rotate
import Verif.Model.ExecText
import Verif.Props.ExecRunner
import Mathlib.Data.List.Induction

/-!
# C116, C117: output in pieces; shutting down a pool of programs
-/

set_option autoImplicit false

namespace Ade
namespace ExecText
open ExecRunner (Stage Ev)
open scoped List

/-- A text on one line: not empty, without line ends. -/
def IsLine (t : List Char) : Prop := t ≠ [] ∧ ∀ c ∈ t, c ≠ '\n' ∧ c ≠ '\r'

/-- A text of line ends only. -/
def Blank (t : List Char) : Prop := ∀ c ∈ t, c = '\n' ∨ c = '\r'

theorem filter_line {t : List Char} (h : ∀ c ∈ t, c ≠ '\n' ∧ c ≠ '\r') : t.filter (· != '\r') = t :=
  List.filter_eq_self.2 fun c hc => by simpa using (h c hc).2

theorem dropWhile_nl {t : List Char} (h : ∀ c ∈ t, c = '\n') (r : List Char) :
    (t ++ r).dropWhile (· == '\n') = r.dropWhile (· == '\n') := by
  induction t with
  | nil => rfl
  | cons c t ih =>
    have := h c (by simp)
    subst this
    simpa using ih fun c hc => h c (by simp [hc])

theorem dropWhile_line {t r : List Char} (h : IsLine t) : (t ++ r).dropWhile (· == '\n') = t ++ r := by
  obtain ⟨h1, h2⟩ := h
  cases t with
  | nil => exact absurd rfl h1
  | cons c t => simp [(h2 c (by simp)).1]

theorem isLine_reverse {t : List Char} (h : IsLine t) : IsLine t.reverse :=
  ⟨by simpa using h.1, by simpa using h.2⟩

theorem blank_filter {t : List Char} (h : Blank t) : ∀ c ∈ t.filter (· != '\r'), c = '\n' := by
  intro c hc
  rw [List.mem_filter] at hc
  rcases h c hc.1 with h | h
  · exact h
  · simp [h] at hc

/-- A line with line ends around it, or line ends only. -/
theorem clean_around (a t b : List Char) (ha : Blank a) (hb : Blank b) (ht : IsLine t) : clean (a ++ t ++ b) = t := by
  unfold clean
  rw [List.filter_append, List.filter_append, filter_line ht.2, List.append_assoc, dropWhile_nl (blank_filter ha),
    dropWhile_line ht, List.reverse_append, dropWhile_nl (by simpa using blank_filter hb)]
  have := dropWhile_line (r := []) (isLine_reverse ht)
  rw [List.append_nil] at this
  rw [this, List.reverse_reverse]

theorem clean_blank (a : List Char) (ha : Blank a) : clean a = [] := by
  unfold clean
  have := dropWhile_nl (blank_filter ha) []
  rw [List.append_nil] at this
  rw [this]
  rfl

/-! ## C116 -/

/-- The output that belongs to what happens to a program that answers each input by one line, with any line ends around it,
each line being received in one piece: `answer n` is the line for input `n`. -/
def pieces (answer : ℕ → List Char) (s : ExecRunner.St) : List Ev → List TEv → Prop
  | [], ts => ts = []
  | .call n :: es, ts => ∃ ts', ts = .call n :: ts' ∧ pieces answer (ExecRunner.step s (.call n)) es ts'
  | .connect :: es, ts => ∃ ts', ts = .connect :: ts' ∧ pieces answer (ExecRunner.step s .connect) es ts'
  | .shutdown :: es, ts => pieces answer (ExecRunner.step s .shutdown) es ts
  | .answer :: es, ts =>
    match s.inputs with
    | [] => pieces answer s es ts
    | n :: _ => ∃ a b ts', Blank a ∧ Blank b ∧ ts = .out (a ++ answer n ++ b) :: ts' ∧
        pieces answer (ExecRunner.step s .answer) es ts'

/-- The two models in step. -/
structure Agree (answer : ℕ → List Char) (s : ExecRunner.St) (t : TSt) : Prop where
  locked : t.locked = s.locked
  waiting : t.waiting = s.waiting
  response : t.response = s.response.map answer
  results : t.results = s.results.map fun r => (r.1, r.2.map answer)
  running : s.running = none

theorem agree_release {answer : ℕ → List Char} {s : ExecRunner.St} {t : TSt} (h : Agree answer s t)
    (w : List (ℕ × Stage)) : Agree answer (ExecRunner.release s w) (release t w) := by
  induction w with
  | nil => exact ⟨rfl, rfl, h.response, h.results, h.running⟩
  | cons x w ih =>
    obtain ⟨n, g⟩ := x
    cases g with
    | toWrite => exact ⟨rfl, rfl, h.response, h.results, h.running⟩
    | toRead =>
      refine ⟨ih.locked, ih.waiting, ih.response, ?_, ih.running⟩
      show (n, (release t w).response) :: (release t w).results = _
      rw [ih.results, ih.response]
      rfl

theorem agree_run {answer : ℕ → List Char} (ha : ∀ n, IsLine (answer n)) (evs : List Ev) (s : ExecRunner.St) (t : TSt)
    (h : Agree answer s t) (ts : List TEv) (hp : pieces answer s evs ts) :
    Agree answer (ExecRunner.run s evs) (run t ts) := by
  induction evs generalizing s t ts with
  | nil => rw [show ts = [] from hp]; exact h
  | cons e evs ih =>
    show Agree answer (ExecRunner.run (ExecRunner.step s e) evs) _
    match e, hp with
    | .call n, ⟨ts', he, hp'⟩ =>
      subst he
      refine ih _ (step t (.call n)) ?_ ts' hp'
      unfold ExecRunner.step step
      simp only [h.locked]
      split_ifs
      · exact ⟨rfl, by simp [h.waiting], h.response, h.results, h.running⟩
      · exact ⟨rfl, by simp [h.waiting], h.response, h.results, h.running⟩
    | .connect, ⟨ts', he, hp'⟩ =>
      subst he
      refine ih _ (step t .connect) ?_ ts' hp'
      unfold ExecRunner.step step
      simp only [h.locked, h.waiting]
      split_ifs
      · exact agree_release h _
      · exact h
    | .shutdown, hp' =>
      refine ih _ t ?_ ts hp'
      have : ExecRunner.step s .shutdown = s := by simp [ExecRunner.step, h.running]
      rw [this]; exact h
    | .answer, hp' =>
      rw [pieces] at hp'
      cases hi : s.inputs with
      | nil =>
        rw [hi] at hp'
        have : ExecRunner.step s .answer = s := by simp [ExecRunner.step, hi]
        rw [this]
        exact ih s t h ts hp'
      | cons n inputs =>
        rw [hi] at hp'
        obtain ⟨a, b, ts', h1, h2, rfl, hp'⟩ := hp'
        refine ih _ (step t (.out (a ++ answer n ++ b))) ?_ ts' hp'
        unfold ExecRunner.step step
        simp only [hi, clean_around a (answer n) b h1 h2 (ha n), (ha n).1, false_or, h.locked]
        cases hl : s.locked with
        | false => simp only [if_true, Bool.false_eq_true, if_false]; exact ⟨by simp [hl, h.locked], h.waiting, h.response, h.results, h.running⟩
        | true =>
          simp only [Bool.true_eq_false, if_false, if_true]
          have : Agree answer { s with inputs := inputs, response := some n }
              { t with response := some (answer n) } :=
            ⟨h.locked, h.waiting, rfl, h.results, h.running⟩
          have hr := agree_release this s.waiting
          have hl' : t.locked = true := h.locked.trans hl
          simpa [hl, hl', h.waiting] using hr

/-- C116, what holds: if every line of the program is received in one piece by itself, with any line ends around it, the
commands get the texts that `ExecRunner` says they get: with calls made carefully, each command gets the line that the
program has written for its arguments, and gives the number that the line stands for. -/
theorem C116_whole_lines_partial (answer : ℕ → List Char) (ha : ∀ n, IsLine (answer n)) (evs : List Ev)
    (hc : ExecRunner.Careful evs) (ts : List TEv) (hp : pieces answer ExecRunner.start evs ts) :
    (∀ n a, (n, a) ∈ (run start ts).results →
      a = some (answer n) ∧ ∀ float : List Char → Option ℚ, outcome float a = float (answer n)) ∧
      (run start ts).results.length = (ExecRunner.run ExecRunner.start evs).results.length := by
  have h := agree_run ha evs ExecRunner.start start ⟨rfl, rfl, rfl, rfl, rfl⟩ ts hp
  have h98 := (ExecRunner.C98_two_in_flight_partial evs hc).1
  rw [h.results]
  refine ⟨fun n a hm => ?_, by simp⟩
  obtain ⟨⟨m, b⟩, hb, he⟩ := List.mem_map.1 hm
  cases he
  rw [h98 m b hb]
  exact ⟨rfl, fun _ => rfl⟩

/-- Commands that wait for an answer. -/
def asked (w : List (ℕ × Stage)) : List ℕ := (w.filter fun p => decide (p.2 = .toRead)).map Prod.fst

theorem release_written (s : TSt) (w : List (ℕ × Stage)) :
    (release s w).written ++ (s.results.map Prod.fst ++ asked w) ~
      s.written ++ ((release s w).results.map Prod.fst ++ asked (release s w).waiting) := by
  induction w with
  | nil => exact List.Perm.refl _
  | cons p w ih =>
    obtain ⟨n, st⟩ := p
    cases st with
    | toWrite =>
      simp only [release, asked, List.filter_append, List.map_append]
      simp only [reduceCtorEq, decide_false, Bool.false_eq_true, not_false_eq_true, List.filter_cons_of_neg,
        decide_true, List.filter_cons_of_pos, List.filter_nil, List.map_cons, List.map_nil]
      rw [List.append_assoc]
      refine List.Perm.append_left _ ?_
      exact List.perm_append_comm.trans (by rw [List.append_assoc])
    | toRead =>
      have h : asked ((n, Stage.toRead) :: w) = n :: asked w := rfl
      rw [h]
      simp only [release, List.map_cons, List.cons_append]
      refine (List.Perm.append_left _ List.perm_middle).trans (List.perm_middle.trans ?_)
      exact (ih.cons n).trans List.perm_middle.symm

/-- C116: whatever happens, no command is finished that was not written to the program before, and each command is written at
most once per call: the commands written are those finished and those still waiting for an answer. -/
theorem C116_written (evs : List TEv) :
    (run start evs).written ~ (run start evs).results.map Prod.fst ++ asked (run start evs).waiting := by
  have hrel : ∀ s : TSt, s.written ~ s.results.map Prod.fst ++ asked s.waiting →
      ∀ r, (release { s with response := r } s.waiting).written ~
        (release { s with response := r } s.waiting).results.map Prod.fst ++
          asked (release { s with response := r } s.waiting).waiting := by
    intro s hs r
    have h := release_written { s with response := r } s.waiting
    dsimp only at h
    have h' := (List.Perm.append_left (release { s with response := r } s.waiting).written hs).trans h
    exact (List.perm_append_left_iff s.written).1 (List.perm_append_comm.trans h')
  induction evs using List.reverseRecOn with
  | nil => exact List.Perm.refl _
  | append_singleton evs e ih =>
    have he : run start (evs ++ [e]) = step (run start evs) e := by simp [run]
    rw [he]
    cases e with
    | call n =>
      simp only [step]
      split
      · simpa [asked, List.filter_append] using ih
      · simp only [asked, List.filter_append, List.map_append]
        rw [← List.append_assoc]
        exact ih.append_right _
    | connect =>
      simp only [step]
      split
      · exact hrel _ ih _
      · exact ih
    | out data =>
      simp only [step]
      split
      · exact ih
      · exact hrel _ ih _

example : asked (run start [.call 5, .connect, .call 6]).waiting = [5] ∧
    (run start [.call 5, .connect, .call 6]).written = [5] := by decide

/-- C116: pieces of line ends only change nothing, whatever has happened. -/
theorem C116_blank (s : TSt) (data : List Char) (h : Blank data) : step s (.out data) = s := by
  simp [step, clean_blank data h]

/-- C116 fails: if a line arrives in two pieces, its first piece alone is taken for the answer; and if another command is
issued before the second piece arrives, that is taken for the answer to the other command. -/
theorem C116_cut (n m : ℕ) (u v : List Char) (hu : IsLine u) (hv : IsLine v) :
    (run start [.connect, .call n, .out u, .out (v ++ ['\n'])]).results = [(n, some u)] ∧
      (run start [.connect, .call n, .out u, .call m, .out (v ++ ['\n'])]).results = [(m, some v), (n, some u)] := by
  have cu : clean u = u := by simpa using clean_around [] u [] (by simp [Blank]) (by simp [Blank]) hu
  have cv : clean (v ++ ['\n']) = v := by simpa using clean_around [] v ['\n'] (by simp [Blank]) (by simp [Blank]) hv
  constructor <;> simp [run, step, start, release, cu, cv, hu.1, hv.1]

/-- C116 fails: two lines that arrive in one piece are taken for one answer; no number is a text with a line end in its
middle, so the command gives `None`. -/
theorem C116_two_lines (float : List Char → Option ℚ) (hf : ∀ a b, IsLine a → IsLine b → float (a ++ '\n' :: b) = none)
    (n : ℕ) (u v : List Char) (hu : IsLine u) (hv : IsLine v) :
    (run start [.connect, .call n, .out (u ++ '\n' :: v ++ ['\n'])]).results.map (fun r => (r.1, outcome float r.2)) =
      [(n, none)] := by
  have c : clean (u ++ '\n' :: v ++ ['\n']) = u ++ '\n' :: v := by
    unfold clean
    rw [List.append_assoc, List.filter_append, filter_line hu.2, dropWhile_line hu, List.filter_append]
    rw [show ('\n' :: v).filter (· != '\r') = '\n' :: v by
      rw [List.filter_cons, if_pos (by decide), filter_line hv.2]]
    rw [show ['\n'].filter (· != '\r') = ['\n'] by decide]
    rw [List.reverse_append, List.reverse_append, List.reverse_cons, List.reverse_cons, List.reverse_nil,
      List.nil_append, List.append_assoc, List.append_assoc]
    rw [dropWhile_nl (t := ['\n']) (by simp), dropWhile_line (isLine_reverse hv)]
    simp
  have : (run start [.connect, .call n, .out (u ++ '\n' :: v ++ ['\n'])]).results = [(n, some (u ++ '\n' :: v))] := by
    simp only [run, List.foldl_cons, List.foldl_nil]
    rw [show step start .connect = ⟨false, [], none, [], []⟩ from rfl]
    rw [show step ⟨false, [], none, [], []⟩ (.call n) = ⟨true, [(n, .toRead)], none, [n], []⟩ from rfl]
    rw [step, c]
    simp [release]
  rw [this]
  simp [outcome, hf u v hu hv]

/-! ## C117 -/

theorem stop_queue (p : Pool) (r : ℕ) : (p.stop r).queue = p.queue ∧ (p.stop r).waiting = p.waiting ∧
    (p.stop r).given = p.given ∧ (p.stop r).size = p.size ∧
    (p.stop r).trigger = Function.update p.trigger r false ∧
    ∀ r', (p.stop r).stopped r' = p.stopped r' + if r' = r ∧ p.trigger r = true then 1 else 0 := by
  unfold Pool.stop
  split_ifs with h
  · refine ⟨rfl, rfl, rfl, rfl, rfl, fun r' => ?_⟩
    by_cases hr : r' = r
    · subst hr; simp [h]
    · simp [hr]
  · refine ⟨rfl, rfl, rfl, rfl, ?_, fun r' => ?_⟩
    · have : p.trigger r = false := by simpa using h
      rw [← this, Function.update_eq_self]
    · simp [h]

theorem stopAll_nil (n : ℕ) (q : Pool) (hq : q.queue = []) :
    Pool.stopAll (n + 1) q = Pool.stopAll n { q with waiting := q.waiting ++ [none] } := by
  rw [Pool.stopAll]
  split
  · rfl
  · rename_i h; rw [hq] at h; cases h

theorem call_nil (q : Pool) (n : ℕ) (hq : q.queue = []) :
    q.step (.call n) = { q with waiting := q.waiting ++ [some n] } := by
  unfold Pool.step
  simp only
  split
  · rfl
  · rename_i h; rw [hq] at h; cases h

theorem stopAll_spec (n : ℕ) (p : Pool) (h : p.queue.length = n) (hnd : p.queue.Nodup) :
    (Pool.stopAll n p).queue = [] ∧ (Pool.stopAll n p).waiting = p.waiting ∧ (Pool.stopAll n p).given = p.given ∧
      (Pool.stopAll n p).size = p.size ∧
      (∀ r, (Pool.stopAll n p).trigger r = if r ∈ p.queue then false else p.trigger r) ∧
      ∀ r, (Pool.stopAll n p).stopped r = p.stopped r + if r ∈ p.queue ∧ p.trigger r = true then 1 else 0 := by
  induction n generalizing p with
  | zero =>
    have hq := List.length_eq_zero_iff.1 h
    simp [Pool.stopAll, hq]
  | succ n ih =>
    cases hq : p.queue with
    | nil => simp [hq] at h
    | cons r q =>
      rw [Pool.stopAll, hq]
      simp only
      rw [hq] at h hnd
      obtain ⟨s1, s2, s3, s4, s5, s6⟩ := stop_queue { p with queue := q } r
      have hrq := (List.nodup_cons.1 hnd).1
      obtain ⟨i1, i2, i3, i4, i5, i6⟩ := ih (Pool.stop { p with queue := q } r) (by rw [s1]; simpa using h)
        (by rw [s1]; exact (List.nodup_cons.1 hnd).2)
      refine ⟨i1, i2.trans s2, i3.trans s3, i4.trans s4, fun r' => ?_, fun r' => ?_⟩
      · rw [i5, s1, s5]
        by_cases hr : r' = r
        · subst hr; simp
        · simp [hr]
      · rw [i6, s1, s5, s6]
        by_cases hr : r' = r
        · subst hr; simp [hrq]
        · simp [hr]

/-- The pool's queue while it is not shut down. -/
theorem queue_perm (N : ℕ) (evs : List PEv) (h : PEv.shutdown ∉ evs) :
    (Pool.run (Pool.start N) evs).queue.Perm (List.range N) ∧ (Pool.run (Pool.start N) evs).size = N ∧
      (0 < N → (Pool.run (Pool.start N) evs).waiting = []) := by
  induction evs using List.reverseRecOn with
  | nil => exact ⟨.refl _, rfl, fun _ => rfl⟩
  | append_singleton evs e ih =>
    obtain ⟨i1, i2, i3⟩ := ih fun hm => h (by simp [hm])
    rw [Pool.run, List.foldl_append]
    show (Pool.step (Pool.run (Pool.start N) evs) e).queue.Perm _ ∧ (Pool.step (Pool.run (Pool.start N) evs) e).size = N ∧
      (0 < N → (Pool.step (Pool.run (Pool.start N) evs) e).waiting = [])
    generalize Pool.run (Pool.start N) evs = p at *
    match e, h with
    | .call n, _ =>
      unfold Pool.step
      cases hq : p.queue with
      | nil =>
        refine ⟨by simpa [hq] using i1, i2, fun hN => ?_⟩
        rw [hq] at i1
        have := i1.length_eq
        simp at this
        omega
      | cons r q =>
        refine ⟨?_, i2, i3⟩
        rw [hq] at i1
        exact (List.perm_append_singleton r q).trans i1
    | .shutdown, h => exact absurd (by simp) h
    | .stop r, _ =>
      obtain ⟨s1, s2, _, s4, _⟩ := stop_queue p r
      exact ⟨by rw [Pool.step, s1]; exact i1, by rw [Pool.step, s4]; exact i2, fun hN => by rw [Pool.step, s2]; exact i3 hN⟩

/-- The commands the pool is called with, in order. -/
def commands (evs : List PEv) : List ℕ :=
  evs.filterMap fun e => match e with
    | .call n => some n
    | _ => none

/-- C117: until the pool is shut down its runners take turns, each of them given every `N`th command. -/
theorem C117_in_turn (N : ℕ) (hN : 0 < N) (evs : List PEv) (h : PEv.shutdown ∉ evs) :
    (Pool.run (Pool.start N) evs).given = (commands evs).zipIdx.map fun x => (x.2 % N, x.1) := by
  have key : (Pool.run (Pool.start N) evs).queue = (List.range N).rotate (commands evs).length ∧
      (Pool.run (Pool.start N) evs).given = (commands evs).zipIdx.map fun x => (x.2 % N, x.1) := by
    induction evs using List.reverseRecOn with
    | nil => exact ⟨by simp [Pool.run, Pool.start, commands], rfl⟩
    | append_singleton evs e ih =>
      obtain ⟨i1, i2⟩ := ih fun hm => h (by simp [hm])
      rw [Pool.run, List.foldl_append]
      show (Pool.step (Pool.run (Pool.start N) evs) e).queue = _ ∧ (Pool.step (Pool.run (Pool.start N) evs) e).given = _
      generalize Pool.run (Pool.start N) evs = p at *
      match e, h with
      | .call n, _ =>
        have hc : commands (evs ++ [.call n]) = commands evs ++ [n] := by simp [commands]
        rw [hc]
        generalize commands evs = cs at *
        cases hq : p.queue with
        | nil =>
          have : ((List.range N).rotate cs.length).length = 0 := by rw [← i1, hq]; rfl
          simp at this
          omega
        | cons r q =>
          rw [hq] at i1
          have hr : r = cs.length % N := by
            have h1 : ((List.range N).rotate (cs.length % N)).head? = some r := by
              have := List.rotate_mod (List.range N) cs.length
              rw [List.length_range] at this
              rw [this, ← i1]; rfl
            rw [List.head?_rotate (by simpa using Nat.mod_lt _ hN), List.getElem?_range (Nat.mod_lt _ hN)] at h1
            exact (Option.some.inj h1).symm
          simp only [Pool.step, hq]
          constructor
          · rw [List.length_append, List.length_singleton, ← List.rotate_rotate, ← i1]
            simp
          · rw [i2, List.zipIdx_append, List.map_append, hr]
            simp
      | .stop r, _ =>
        have hc : commands (evs ++ [.stop r]) = commands evs := by simp [commands]
        rw [hc]
        exact ⟨(stop_queue p r).1.trans i1, (stop_queue p r).2.2.1.trans i2⟩
      | .shutdown, h => exact absurd (by simp) h
  exact key.2

example := C117_in_turn 2 (by decide) [.call 5, .call 6, .stop 1, .call 7] (by decide)

/-- C117, what holds: when the pool is shut down, every runner is shut down, each once, however often and by whom it is shut
down besides; no runner is in the queue afterwards, so that the pool gives no command to any runner any more. -/
theorem C117_each_once_partial (N : ℕ) (pre post : List PEv) (hpre : PEv.shutdown ∉ pre) :
    let p := Pool.run (Pool.start N) (pre ++ .shutdown :: post)
    (∀ r < N, p.stopped r = 1) ∧ p.queue = [] ∧ p.given = (Pool.run (Pool.start N) pre).given := by
  intro p
  -- one runner: as long as it has its trigger it was not shut down
  have inv : ∀ evs : List PEv, ∀ r, (Pool.run (Pool.start N) evs).stopped r =
      if (Pool.run (Pool.start N) evs).trigger r = true then 0 else 1 := by
    have one : ∀ (q : Pool) r, (∀ r', q.stopped r' = if q.trigger r' = true then 0 else 1) →
        ∀ r', (q.stop r).stopped r' = if (q.stop r).trigger r' = true then 0 else 1 := by
      intro q r hq r'
      obtain ⟨_, _, _, _, h5, h6⟩ := stop_queue q r
      rw [h5, h6, hq]
      by_cases hr : r' = r
      · subst hr; cases q.trigger r' <;> simp
      · simp [hr]
    have all : ∀ (n : ℕ) (q : Pool), (∀ r', q.stopped r' = if q.trigger r' = true then 0 else 1) →
        ∀ r', (Pool.stopAll n q).stopped r' = if (Pool.stopAll n q).trigger r' = true then 0 else 1 := by
      intro n
      induction n with
      | zero => intro q hq; exact hq
      | succ n ih =>
        intro q hq
        rw [Pool.stopAll]
        cases q.queue with
        | nil => exact ih _ hq
        | cons r rs => exact ih _ (one { q with queue := rs } r hq)
    intro evs
    induction evs using List.reverseRecOn with
    | nil => intro r; rfl
    | append_singleton evs e ih =>
      rw [Pool.run, List.foldl_append]
      show ∀ r, (Pool.step (Pool.run (Pool.start N) evs) e).stopped r =
        if (Pool.step (Pool.run (Pool.start N) evs) e).trigger r = true then 0 else 1
      match e with
      | .call n =>
        unfold Pool.step
        cases (Pool.run (Pool.start N) evs).queue <;> exact ih
      | .shutdown => exact all _ _ ih
      | .stop r => exact one _ r ih
  -- after the shutdown
  have key : p.queue = [] ∧ p.given = (Pool.run (Pool.start N) pre).given ∧ ∀ r < N, p.trigger r = false := by
    have hp : p = Pool.run (Pool.step (Pool.run (Pool.start N) pre) .shutdown) post := by
      show Pool.run _ _ = _
      rw [Pool.run, List.foldl_append]
      rfl
    obtain ⟨q1, q2, _⟩ := queue_perm N pre hpre
    have hs := stopAll_spec N (Pool.run (Pool.start N) pre) (by rw [q1.length_eq]; simp)
      (q1.nodup_iff.2 List.nodup_range)
    rw [hp]
    have h0 : (Pool.step (Pool.run (Pool.start N) pre) .shutdown).queue = [] ∧
        (Pool.step (Pool.run (Pool.start N) pre) .shutdown).given = (Pool.run (Pool.start N) pre).given ∧
        ∀ r < N, (Pool.step (Pool.run (Pool.start N) pre) .shutdown).trigger r = false := by
      rw [Pool.step, q2]
      refine ⟨hs.1, hs.2.2.1, fun r hr => ?_⟩
      rw [hs.2.2.2.2.1, if_pos (q1.mem_iff.2 (List.mem_range.2 hr))]
    generalize Pool.step (Pool.run (Pool.start N) pre) .shutdown = q at h0
    have keep : ∀ (n : ℕ) (q : Pool), q.queue = [] → (Pool.stopAll n q).queue = [] ∧
        (Pool.stopAll n q).given = q.given ∧ (Pool.stopAll n q).trigger = q.trigger := by
      intro n
      induction n with
      | zero => intro q hq; exact ⟨hq, rfl, rfl⟩
      | succ n ih =>
        intro q hq
        rw [stopAll_nil n q hq]
        exact ih { q with waiting := q.waiting ++ [none] } hq
    clear hp hs q1 q2 inv
    induction post generalizing q with
    | nil => exact h0
    | cons e post ih =>
      show (Pool.run (Pool.step q e) post).queue = [] ∧ _
      refine ih (Pool.step q e) ?_
      match e with
      | .call n =>
        rw [call_nil q n h0.1]
        exact h0
      | .shutdown =>
        obtain ⟨k1, k2, k3⟩ := keep q.size q h0.1
        rw [Pool.step]
        exact ⟨k1, k2.trans h0.2.1, fun r hr => by rw [k3]; exact h0.2.2 r hr⟩
      | .stop r =>
        obtain ⟨s1, _, s3, _, s5, _⟩ := stop_queue q r
        rw [Pool.step]
        refine ⟨s1.trans h0.1, s3.trans h0.2.1, fun r' hr => ?_⟩
        rw [s5]
        by_cases h : r' = r
        · subst h; simp
        · simp [h, h0.2.2 r' hr]
  refine ⟨fun r hr => ?_, key.1, key.2.1⟩
  rw [inv, key.2.2 r hr]
  rfl

/-- C117 fails: a pool that has been shut down answers nothing any more: every later call, and every request of a second
`shutdown`, waits for ever. -/
theorem C117_waits_for_ever (N : ℕ) (pre post : List PEv) (hpre : PEv.shutdown ∉ pre) (n : ℕ)
    (rest : List PEv) :
    let p := Pool.run (Pool.start N) (pre ++ .shutdown :: (post ++ .call n :: rest))
    some n ∈ p.waiting ∧
      (Pool.run (Pool.start N) (pre ++ .shutdown :: (post ++ .shutdown :: rest))).waiting.count none ≥ N := by
  obtain ⟨q1, q2, _⟩ := queue_perm N pre hpre
  have hs := stopAll_spec N (Pool.run (Pool.start N) pre) (by rw [q1.length_eq]; simp) (q1.nodup_iff.2 List.nodup_range)
  have keep : ∀ (n : ℕ) (q : Pool), q.queue = [] → (Pool.stopAll n q).queue = [] ∧
      (Pool.stopAll n q).waiting = q.waiting ++ List.replicate n none ∧ (Pool.stopAll n q).size = q.size := by
    intro n
    induction n with
    | zero => intro q hq; exact ⟨hq, by simp [Pool.stopAll], rfl⟩
    | succ n ih =>
      intro q hq
      rw [stopAll_nil n q hq]
      obtain ⟨i1, i2, i3⟩ := ih { q with waiting := q.waiting ++ [none] } hq
      exact ⟨i1, by rw [i2]; simp [List.replicate_succ], i3⟩
  have stepKeep : ∀ (q : Pool) (e : PEv), q.queue = [] → (q.step e).queue = [] ∧ q.waiting <+: (q.step e).waiting ∧
      (q.step e).size = q.size := by
    intro q e hq
    match e with
    | .call m =>
      rw [call_nil q m hq]
      exact ⟨hq, List.prefix_append _ _, rfl⟩
    | .shutdown =>
      obtain ⟨k1, k2, k3⟩ := keep q.size q hq
      rw [Pool.step]
      exact ⟨k1, by rw [k2]; exact List.prefix_append _ _, k3⟩
    | .stop r =>
      obtain ⟨s1, s2, _, s4, _⟩ := stop_queue q r
      rw [Pool.step]
      exact ⟨s1.trans hq, s2 ▸ List.prefix_refl _, s4⟩
  have runKeep : ∀ (es : List PEv) (q : Pool), q.queue = [] → (Pool.run q es).queue = [] ∧
      q.waiting <+: (Pool.run q es).waiting ∧ (Pool.run q es).size = q.size := by
    intro es
    induction es with
    | nil => intro q hq; exact ⟨hq, List.prefix_refl _, rfl⟩
    | cons e es ih =>
      intro q hq
      obtain ⟨k1, k2, k3⟩ := stepKeep q e hq
      obtain ⟨i1, i2, i3⟩ := ih (q.step e) k1
      exact ⟨i1, k2.trans i2, i3.trans k3⟩
  have split : ∀ e, Pool.run (Pool.start N) (pre ++ .shutdown :: (post ++ e :: rest)) =
      Pool.run (Pool.step (Pool.run (Pool.step (Pool.run (Pool.start N) pre) .shutdown) post) e) rest := by
    intro e
    simp [Pool.run, List.foldl_append]
  have h0 : (Pool.step (Pool.run (Pool.start N) pre) .shutdown).queue = [] ∧
      (Pool.step (Pool.run (Pool.start N) pre) .shutdown).size = N := by
    rw [Pool.step, q2]
    exact ⟨hs.1, hs.2.2.2.1.trans q2⟩
  obtain ⟨a1, a2, a3⟩ := runKeep post _ h0.1
  rw [h0.2] at a3
  generalize Pool.run (Pool.step (Pool.run (Pool.start N) pre) .shutdown) post = q at *
  intro p
  constructor
  · show some n ∈ (Pool.run (Pool.start N) _).waiting
    rw [split]
    obtain ⟨b1, _, _⟩ := stepKeep q (.call n) a1
    refine (runKeep rest _ b1).2.1.subset ?_
    rw [call_nil q n a1]
    simp
  · rw [split]
    obtain ⟨b1, _, _⟩ := stepKeep q .shutdown a1
    obtain ⟨t, ht⟩ := (runKeep rest _ b1).2.1
    have h1 : (q.step .shutdown).waiting = q.waiting ++ List.replicate N none := by
      rw [Pool.step, (keep q.size q a1).2.1, a3]
    rw [← ht, h1, List.count_append, List.count_append, List.count_replicate_self]
    omega

example := C116_blank start "\r\n".toList (by unfold Blank; decide)
example := C116_cut 0 1 "12".toList "34.5".toList (by unfold IsLine; decide) (by unfold IsLine; decide)
example := C116_two_lines (fun t => if t = "12".toList then some 12 else none) (by
  intro a b _ _
  have : a ++ '\n' :: b ≠ "12".toList := by
    intro h
    have : '\n' ∈ "12".toList := by rw [← h]; simp
    exact absurd this (by decide)
  simp only [if_neg this]) 0 "12".toList "34.5".toList (by unfold IsLine; decide) (by unfold IsLine; decide)

/-- The lines of a program. -/
def exAnswer (n : ℕ) : List Char := '3' :: List.replicate n '0'

theorem exAnswer_line (n : ℕ) : IsLine (exAnswer n) := by
  refine ⟨by simp [exAnswer], fun c hc => ?_⟩
  simp only [exAnswer, List.mem_cons, List.mem_replicate] at hc
  rcases hc with rfl | ⟨_, rfl⟩ <;> decide

example := C116_whole_lines_partial exAnswer exAnswer_line ExecRunner.demoCareful ExecRunner.demoCareful_careful
  [.call 5, .connect, .call 6, .out (exAnswer 5 ++ ['\r', '\n']), .call 7, .out (['\n'] ++ exAnswer 6 ++ ['\n']),
    .out (exAnswer 7 ++ ['\n'])]
  ⟨_, rfl, _, rfl, _, rfl, [], ['\r', '\n'], _, by simp [Blank], by simp [Blank], rfl, _, rfl, ['\n'], ['\n'], _,
    by simp [Blank], by simp [Blank], rfl, [], ['\n'], _, by simp [Blank], by simp [Blank], rfl, rfl⟩

example := C117_each_once_partial 3 [.call 0, .stop 1, .call 1] [.call 2, .shutdown, .stop 2] (by decide)
example := C117_waits_for_ever 3 [.call 0, .call 1] [.stop 0] (by decide) 2 []

end ExecText
end Ade
