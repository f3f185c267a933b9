import Verif.Model.ExecRunner
import Mathlib.Data.List.Induction

/-!
# Property C98: answers of an external program
-/

set_option autoImplicit false

namespace Ade
namespace ExecRunner

/-- The command that an event issues. -/
def Ev.issued : Ev → Option ℕ
  | .call n => some n
  | _ => none

/-- The commands issued, in order. -/
def calls (evs : List Ev) : List ℕ := evs.filterMap Ev.issued

/-- The number of commands that have not got an answer. -/
def inFlight (evs : List Ev) : ℕ := (calls evs).length - (run start evs).results.length

/-- The process is connected once; no command is issued while two others wait for their answers, or while one
waits for the connection. -/
def Careful (evs : List Ev) : Prop :=
  (∀ pre n post, evs = pre ++ .call n :: post → inFlight pre ≤ if .connect ∈ pre then 1 else 0) ∧
    ∀ pre post, evs = pre ++ .connect :: post → .connect ∉ pre

theorem run_snoc (s : St) (evs : List Ev) (e : Ev) : run s (evs ++ [e]) = step (run s evs) e := by
  simp [run]

theorem calls_snoc (evs : List Ev) (e : Ev) : calls (evs ++ [e]) = calls evs ++ e.issued.toList := by
  unfold calls
  rw [List.filterMap_append]
  cases e <;> rfl

/-- The state while at most two commands (`o`) are in flight. -/
inductive Shape : Bool → List ℕ → St → Prop where
  | before (o : List ℕ) (s : St) (h1 : s.locked = true) (h2 : s.waiting = o.map fun n => (n, .toWrite))
      (h3 : s.inputs = []) (h4 : o.length ≤ 1) : Shape false o s
  | idle (s : St) (h1 : s.locked = false) (h2 : s.waiting = []) (h3 : s.inputs = []) : Shape true [] s
  | one (a : ℕ) (s : St) (h1 : s.locked = true) (h2 : s.waiting = [(a, .toRead)]) (h3 : s.inputs = [a]) :
      Shape true [a] s
  | two (a b : ℕ) (s : St) (h1 : s.locked = true) (h2 : s.waiting = [(a, .toRead), (b, .toWrite)])
      (h3 : s.inputs = [a]) : Shape true [a, b] s

theorem careful_invariant (evs : List Ev) (h : Careful evs) :
    (run start evs).running = none ∧ (∀ x ∈ (run start evs).results, x.2 = some x.1) ∧
      ∃ o, Shape (decide (.connect ∈ evs)) o (run start evs) ∧
        calls evs = (run start evs).results.reverse.map Prod.fst ++ o := by
  induction evs using List.reverseRecOn with
  | nil => exact ⟨rfl, by simp [run, start], [], .before [] _ rfl rfl rfl (by simp), rfl⟩
  | append_singleton evs e ih =>
    obtain ⟨hc, hk⟩ := h
    obtain ⟨hr, hres, o, hs, ho⟩ := ih
      ⟨fun pre n post he => hc pre n (post ++ [e]) (by rw [he]; simp),
        fun pre post he => hk pre (post ++ [e]) (by rw [he]; simp)⟩
    rw [run_snoc, calls_snoc]
    have hfl : inFlight evs = o.length := by
      unfold inFlight
      rw [ho]; simp
    generalize hst : run start evs = s at hr hres hs ho
    cases e with
    | call n =>
      have h1 := hc evs n [] rfl
      rw [hfl] at h1
      have hm : (decide (Ev.connect ∈ evs ++ [.call n])) = decide (.connect ∈ evs) := by simp
      rw [hm]
      generalize hb : decide (Ev.connect ∈ evs) = b at hs
      have hoc : calls evs ++ (Ev.call n).issued.toList = s.results.reverse.map Prod.fst ++ (o ++ [n]) := by
        rw [ho, List.append_assoc]; rfl
      cases hs with
      | before _ _ a1 a2 a3 a4 =>
        have : Ev.connect ∉ evs := by simpa using hb
        rw [if_neg this] at h1
        obtain rfl : o = [] := List.length_eq_zero_iff.1 (by omega)
        simp only [step, a1, if_true]
        exact ⟨hr, hres, [n], .before [n] _ rfl (by rw [a2]; rfl) a3 (by simp), hoc⟩
      | idle _ a1 a2 a3 =>
        simp only [step, a1, Bool.false_eq_true, if_false]
        exact ⟨hr, hres, [n], .one n _ rfl (by rw [a2]; rfl) (by rw [a3]; rfl), hoc⟩
      | one a _ a1 a2 a3 =>
        simp only [step, a1, if_true]
        exact ⟨hr, hres, [a, n], .two a n _ rfl (by rw [a2]; rfl) a3, hoc⟩
      | two a b _ a1 a2 a3 =>
        split at h1 <;> simp at h1
    | connect =>
      have hn := hk evs [] rfl
      have hb : decide (Ev.connect ∈ evs) = false := by simpa using hn
      rw [hb] at hs
      have hm : (decide (Ev.connect ∈ evs ++ [Ev.connect])) = true := by simp
      rw [hm]
      have hoc : calls evs ++ (Ev.connect).issued.toList = s.results.reverse.map Prod.fst ++ o := by
        rw [ho]; simp [Ev.issued]
      cases hs with
      | before _ _ a1 a2 a3 a4 =>
        simp only [step, a1, if_true]
        match o, a4 with
        | [], _ =>
          rw [a2]
          exact ⟨hr, hres, [], .idle _ rfl rfl a3, hoc⟩
        | [n], _ =>
          rw [a2]
          refine ⟨hr, hres, [n], .one n _ rfl rfl ?_, hoc⟩
          simp only [List.map_cons, List.map_nil, release, a3, List.nil_append]
    | answer =>
      have hm : (decide (Ev.connect ∈ evs ++ [.answer])) = decide (.connect ∈ evs) := by simp
      rw [hm]
      have hoc : calls evs ++ (Ev.answer).issued.toList = s.results.reverse.map Prod.fst ++ o := by
        rw [ho]; simp [Ev.issued]
      generalize decide (Ev.connect ∈ evs) = b at hs
      cases hs with
      | before _ _ a1 a2 a3 a4 =>
        simp only [step, a3]
        exact ⟨hr, hres, o, .before o _ a1 a2 a3 a4, hoc⟩
      | idle _ a1 a2 a3 =>
        simp only [step, a3]
        exact ⟨hr, hres, [], .idle _ a1 a2 a3, hoc⟩
      | one a _ a1 a2 a3 =>
        simp only [step, a3, a1, a2, if_true, release]
        refine ⟨hr, ?_, [], .idle _ rfl rfl rfl, ?_⟩
        · intro x hx
          rcases List.mem_cons.1 hx with rfl | hx
          · rfl
          · exact hres x hx
        · rw [hoc]; simp
      | two a b _ a1 a2 a3 =>
        simp only [step, a3, a1, a2, if_true, release]
        refine ⟨hr, ?_, [b], .one b _ rfl rfl rfl, ?_⟩
        · intro x hx
          rcases List.mem_cons.1 hx with rfl | hx
          · rfl
          · exact hres x hx
        · rw [hoc]; simp
    | shutdown =>
      have hm : (decide (Ev.connect ∈ evs ++ [.shutdown])) = decide (.connect ∈ evs) := by simp
      rw [hm]
      have hst' : step s .shutdown = s := by simp [step, hr]
      rw [hst']
      exact ⟨hr, hres, o, hs, by rw [ho]; simp [Ev.issued]⟩

/-- C98, what holds: as long as no command is issued while two others wait for their answers (or while one waits for
the connection), each command gets the answer to its own arguments, the commands finish in the order in which they
were issued, and when the program has answered all its inputs after the connection no command waits. -/
theorem C98_two_in_flight_partial (evs : List Ev) (h : Careful evs) :
    (∀ n a, (n, a) ∈ (run start evs).results → a = some n) ∧
      (run start evs).results.reverse.map Prod.fst <+: calls evs ∧
      (Ev.connect ∈ evs → (run start evs).inputs = [] →
        (run start evs).results.reverse.map Prod.fst = calls evs) := by
  obtain ⟨-, h2, o, hs, ho⟩ := careful_invariant evs h
  refine ⟨fun n a hm => h2 (n, a) hm, ⟨o, ho.symm⟩, fun hc hi => ?_⟩
  rw [decide_eq_true hc] at hs
  rw [ho]
  generalize run start evs = s at hs hi
  cases hs with
  | idle => simp
  | one a _ a1 a2 a3 => rw [a3] at hi; cases hi
  | two a b _ a1 a2 a3 => rw [a3] at hi; cases hi

/-- All the commands read the last answer. -/
theorem release_toRead (s : St) (l : List ℕ) :
    release s (l.map fun n => (n, .toRead)) =
      { s with locked := false, waiting := [], results := (l.map fun n => (n, s.response)) ++ s.results } := by
  induction l with
  | nil => rfl
  | cons n l ih =>
    simp only [List.map_cons, release]
    rw [ih]
    rfl

/-- The answers to several commands in flight. -/
theorem answers (todo : List ℕ) : ∀ (done : List ℕ) (x : ℕ) (s : St), s.locked = true → s.inputs = [x] →
    s.waiting = (todo.map fun n => (n, Stage.toWrite)) ++ (done.map fun n => (n, Stage.toRead)) →
    (run s (List.replicate (todo.length + 1) .answer)).results =
      ((done ++ todo).map fun n => (n, some (todo.getLastD x))) ++ s.results := by
  induction todo with
  | nil =>
    intro done x s h1 h2 h3
    simp only [List.map_nil, List.nil_append] at h3
    simp only [List.length_nil, Nat.zero_add, List.replicate_one, run, List.foldl_cons, List.foldl_nil, step, h2, h1,
      if_true, h3, release_toRead, List.append_nil]
    rfl
  | cons c todo ih =>
    intro done x s h1 h2 h3
    have hs : step s .answer = { s with
        inputs := [c], response := some x,
        waiting := (todo.map fun n => (n, Stage.toWrite)) ++ ((done ++ [c]).map fun n => (n, Stage.toRead)) } := by
      simp only [step, h2, h1, if_true, h3, List.map_cons, List.cons_append, release, List.nil_append, List.map_append,
        List.map_nil, List.append_assoc]
    rw [List.length_cons, List.replicate_succ]
    show (run (step s .answer) _).results = _
    rw [hs]
    refine (ih (done ++ [c]) c _ ?_ rfl rfl).trans ?_
    · exact h1
    simp only [List.append_assoc, List.singleton_append]
    cases todo <;> rfl

/-- Calls while the lock is taken. -/
theorem calls_locked (cs : List ℕ) : ∀ s : St, s.locked = true →
    run s (cs.map Ev.call) = { s with waiting := s.waiting ++ cs.map fun n => (n, .toWrite) } := by
  induction cs with
  | nil => intro s _; simp [run]
  | cons c cs ih =>
    intro s h
    have hs : step s (.call c) = { s with waiting := s.waiting ++ [(c, .toWrite)] } := by simp only [step, h, if_true]
    show run (step s (.call c)) (cs.map Ev.call) = _
    rw [hs]
    refine (ih _ ?_).trans ?_
    · exact h
    · simp

theorem run_append (s : St) (a b : List Ev) : run s (a ++ b) = run (run s a) b := List.foldl_append

/-- C98, negation: if several commands are issued at once to a program that is connected, the first one gets its own
answer and all others get the answer to the last one. -/
theorem C98_mixed_up (a : ℕ) (bs : List ℕ) (hb : bs ≠ []) :
    (run start (.connect :: .call a :: bs.map Ev.call ++ List.replicate (bs.length + 1) .answer)).results =
      (bs.map fun b => (b, some (bs.getLast hb))) ++ [(a, some a)] := by
  match bs, hb with
  | b :: bs, hb =>
  rw [run_append]
  have h1 : run start (.connect :: .call a :: (b :: bs).map Ev.call) =
      ⟨true, (a, .toRead) :: (b :: bs).map fun n => (n, .toWrite), none, none, [a], []⟩ := by
    show run ⟨true, [(a, .toRead)], none, none, [a], []⟩ ((b :: bs).map Ev.call) = _
    rw [calls_locked _ _ rfl]
    rfl
  rw [h1, List.length_cons, List.replicate_succ]
  show (run (step _ .answer) _).results = _
  have h2 : step ⟨true, (a, .toRead) :: (b :: bs).map fun n => (n, .toWrite), none, none, [a], []⟩ .answer =
      ⟨true, (bs.map fun n => (n, .toWrite)) ++ [b].map fun n => (n, .toRead), some a, none, [b], [(a, some a)]⟩ := rfl
  rw [h2, answers bs [b] b _ rfl rfl rfl]
  have h3 : bs.getLastD b = (b :: bs).getLast hb := by
    cases bs with
    | nil => rfl
    | cons c bs => simp [List.getLastD]
  rw [h3]
  rfl

/-- C98, negation: of several commands issued before the program is connected, as for the initial population of the
example, all get the answer to the last one. -/
theorem C98_before_connection (bs : List ℕ) (hb : bs ≠ []) :
    (run start (bs.map Ev.call ++ .connect :: List.replicate bs.length .answer)).results =
      bs.map fun b => (b, some (bs.getLast hb)) := by
  match bs, hb with
  | b :: bs, hb =>
  rw [run_append, calls_locked _ _ rfl]
  show (run (step _ .connect) _).results = _
  have h2 : step { start with waiting := start.waiting ++ (b :: bs).map fun n => (n, .toWrite) } .connect =
      ⟨true, (bs.map fun n => (n, .toWrite)) ++ [b].map fun n => (n, .toRead), none, none, [b], []⟩ := rfl
  rw [h2, List.length_cons, answers bs [b] b _ rfl rfl rfl, List.append_nil]
  have h3 : bs.getLastD b = (b :: bs).getLast hb := by
    cases bs with
    | nil => rfl
    | cons c bs => simp [List.getLastD]
  rw [h3]
  rfl

theorem release_running (s : St) (w : List (ℕ × Stage)) : (release s w).running = s.running := by
  induction w with
  | nil => rfl
  | cons x w ih =>
    obtain ⟨n, g⟩ := x
    cases g with
    | toWrite => rfl
    | toRead => exact ih

/-- C98, negation: `shutdown` never does anything, whatever has happened before: the process is not killed and commands
that wait go on waiting. -/
theorem C98_shutdown_without_effect (evs : List Ev) : run start (evs ++ [.shutdown]) = run start evs := by
  have h : (run start evs).running = none := by
    induction evs using List.reverseRecOn with
    | nil => rfl
    | append_singleton evs e ih =>
      rw [run_snoc]
      generalize run start evs = s at ih
      cases e with
      | call n => simp only [step]; split <;> exact ih
      | connect =>
        simp only [step]
        split
        · rw [release_running]; exact ih
        · exact ih
      | answer =>
        simp only [step]
        split
        · exact ih
        · split
          · rw [release_running]; exact ih
          · exact ih
      | shutdown =>
        have : step s .shutdown = s := by simp [step, ih]
        rw [this]; exact ih
  rw [run_snoc]
  simp [step, h]

/-! ## The pool -/

/-- What happens to runner `r` of `N` if commands are given to the runners in turn; `k` commands were given already. -/
def eventsOf (N r : ℕ) : ℕ → List PoolEv → List Ev
  | _, [] => []
  | k, .call n :: evs => if k % N = r then .call n :: eventsOf N r (k + 1) evs else eventsOf N r (k + 1) evs
  | k, .connect r' :: evs => if r' = r then .connect :: eventsOf N r k evs else eventsOf N r k evs
  | k, .answer r' :: evs => if r' = r then .answer :: eventsOf N r k evs else eventsOf N r k evs

/-- The queue after `k` calls. -/
def queueAt (N k : ℕ) : List ℕ := (List.range N).map fun i => (k + i) % N

theorem queueAt_succ (N k : ℕ) (hN : 0 < N) : ∃ q, queueAt N k = k % N :: q ∧ q ++ [k % N] = queueAt N (k + 1) := by
  obtain ⟨M, rfl⟩ : ∃ M, N = M + 1 := ⟨N - 1, by omega⟩
  refine ⟨(List.range M).map fun i => (k + (i + 1)) % (M + 1), ?_, ?_⟩
  · unfold queueAt
    rw [List.range_succ_eq_map, List.map_cons, List.map_map]
    rfl
  · unfold queueAt
    rw [List.range_succ, List.map_append, List.map_cons, List.map_nil]
    congr 1
    · apply List.map_congr_left
      intro i _
      congr 1
      omega
    · have : k + 1 + M = k + (M + 1) := by omega
      rw [this, Nat.add_mod_right]

theorem pool_gen (N : ℕ) (hN : 0 < N) (evs : List PoolEv) : ∀ (k : ℕ) (p : Pool), p.queue = queueAt N k →
    ∀ r, (Pool.run p evs).runner r = run (p.runner r) (eventsOf N r k evs) := by
  induction evs with
  | nil => intro k p _ r; rfl
  | cons e evs ih =>
    intro k p hq r
    show (Pool.run (p.step e) evs).runner r = _
    cases e with
    | call n =>
      obtain ⟨q, h1, h2⟩ := queueAt_succ N k hN
      have hs : p.step (.call n) =
          ⟨q ++ [k % N], Function.update p.runner (k % N) (step (p.runner (k % N)) (.call n))⟩ := by
        simp only [Pool.step]; rw [hq, h1]
      rw [hs, ih (k + 1) _ h2 r]
      simp only [eventsOf]
      by_cases hr : k % N = r
      · subst hr
        rw [if_pos rfl, Function.update_self]
        rfl
      · rw [if_neg hr, Function.update_of_ne (fun h => hr h.symm)]
    | connect r' =>
      refine (ih k _ ?_ r).trans ?_
      · exact hq
      simp only [eventsOf, Pool.step]
      by_cases hr : r' = r
      · subst hr
        rw [if_pos rfl, Function.update_self]
        rfl
      · rw [if_neg hr, Function.update_of_ne (fun h => hr h.symm)]
    | answer r' =>
      refine (ih k _ ?_ r).trans ?_
      · exact hq
      simp only [eventsOf, Pool.step]
      by_cases hr : r' = r
      · subst hr
        rw [if_pos rfl, Function.update_self]
        rfl
      · rw [if_neg hr, Function.update_of_ne (fun h => hr h.symm)]

/-- C98, negation: the pool gives its commands to the runners in turn, whether they are free or not; a runner behaves as
if it got just its share of the commands. -/
theorem C98_in_turn (N : ℕ) (hN : 0 < N) (evs : List PoolEv) (r : ℕ) :
    (Pool.run (Pool.start N) evs).runner r = run start (eventsOf N r 0 evs) := by
  refine pool_gen N hN evs 0 (Pool.start N) ?_ r
  unfold queueAt Pool.start
  simp only [Nat.zero_add]
  exact ((List.map_congr_left (f := fun i => i % N) (g := id) fun i hi => Nat.mod_eq_of_lt (List.mem_range.1 hi)).trans
    (List.map_id _)).symm

/-- C98, what holds for the pool: if each runner gets its commands carefully, each command gets its own answer. -/
theorem C98_pool_partial (N : ℕ) (hN : 0 < N) (evs : List PoolEv) (h : ∀ r, r < N → Careful (eventsOf N r 0 evs))
    (r : ℕ) (hr : r < N) (n : ℕ) (a : Option ℕ) (hm : (n, a) ∈ ((Pool.run (Pool.start N) evs).runner r).results) :
    a = some n := by
  rw [C98_in_turn N hN] at hm
  exact (C98_two_in_flight_partial _ (h r hr)).1 n a hm

/-- Events of a pool of two runners, of which the second is faster. -/
def demoPool : List PoolEv :=
  [.connect 0, .connect 1, .call 0, .call 1, .answer 1, .call 2, .call 3, .answer 1, .call 4]

/-- C98, negation: with two runners, a command is given to the first runner, which is busy with two others, while the
second one is free; in the end command 2 gets the answer to command 4. -/
theorem C98_not_next_free :
    ((Pool.run (Pool.start 2) demoPool).runner 1).waiting = [] ∧
    ((Pool.run (Pool.start 2) demoPool).runner 0).waiting = [(0, .toRead), (2, .toWrite), (4, .toWrite)] ∧
    (2, some 4) ∈ ((Pool.run (Pool.start 2) (demoPool ++ [.answer 0, .answer 0, .answer 0])).runner 0).results := by
  decide +kernel

theorem eventsOf_others (N r : ℕ) (l : List ℕ) (e : List PoolEv) : ∀ k, (∀ i < l.length, (k + i) % N ≠ r) →
    eventsOf N r k (l.map .call ++ e) = eventsOf N r (k + l.length) e := by
  induction l with
  | nil => intro k _; rfl
  | cons n l ih =>
    intro k h
    have h0 : k % N ≠ r := h 0 (by simp)
    show (if k % N = r then _ else _) = _
    rw [if_neg h0]
    refine (ih (k + 1) fun i hi => ?_).trans ?_
    · have := h (i + 1) (by simpa using hi)
      rwa [show k + 1 + i = k + (i + 1) by omega]
    · rw [List.length_cons, show k + 1 + l.length = k + (l.length + 1) by omega]

/-- C98, negation for every pool of two or more runners: once every runner has got a command, the next one is given to the first
runner, which is busy, though the second one is free. -/
theorem C98_busy_though_free (N : ℕ) (a b c : ℕ) (others : List ℕ) (hN : others.length + 2 = N) :
    ∃ p p', p = Pool.run (Pool.start N) ([.connect 0, .connect 1, .call a, .call b] ++ (others.map .call ++ [.answer 1])) ∧
      p' = p.step (.call c) ∧ (p.runner 1).locked = false ∧ (p.runner 1).waiting = [] ∧ (p.runner 0).waiting = [(a, .toRead)] ∧
      p'.runner 1 = p.runner 1 ∧ (p'.runner 0).waiting = [(a, .toRead), (c, .toWrite)] := by
  have h0 : 0 < N := by omega
  have m1 : 1 % N = 1 := Nat.mod_eq_of_lt (by omega)
  have m2 : (1 + 1 + others.length) % N = 0 := by rw [show 1 + 1 + others.length = N by omega, Nat.mod_self]
  have hi : ∀ i < others.length, (1 + 1 + i) % N ≠ 0 ∧ (1 + 1 + i) % N ≠ 1 := by
    intro i hi
    rw [Nat.mod_eq_of_lt (by omega)]
    omega
  have hp' : ∀ (evs : List PoolEv) e, Pool.run (Pool.start N) (evs ++ [e]) = (Pool.run (Pool.start N) evs).step e := by
    intro evs e
    simp [Pool.run]
  refine ⟨_, _, rfl, rfl, ?_⟩
  rw [← hp']
  simp only [C98_in_turn N h0, List.append_assoc]
  have e0 : ∀ e, eventsOf N 0 0 ([.connect 0, .connect 1, .call a, .call b] ++ (others.map .call ++ ([.answer 1] ++ e))) =
      [.connect, .call a] ++ eventsOf N 0 (1 + 1 + others.length) e := by
    intro e
    simp only [List.cons_append, List.nil_append, eventsOf, Nat.zero_mod, m1, Nat.zero_add, if_true]
    rw [if_neg (by decide), if_neg (by decide), eventsOf_others _ _ _ _ _ fun i h => (hi i h).1]
    simp [eventsOf]
  have e1 : ∀ e, eventsOf N 1 0 ([.connect 0, .connect 1, .call a, .call b] ++ (others.map .call ++ ([.answer 1] ++ e))) =
      [.connect, .call b, .answer] ++ eventsOf N 1 (1 + 1 + others.length) e := by
    intro e
    simp only [List.cons_append, List.nil_append, eventsOf, Nat.zero_mod, m1, Nat.zero_add, if_true]
    rw [if_neg (by decide), if_neg (by decide), eventsOf_others _ _ _ _ _ fun i h => (hi i h).2]
    simp [eventsOf]
  have f0 := e0 []
  have f1 := e1 []
  rw [List.append_nil] at f0 f1
  rw [f0, f1, e0, e1]
  simp only [eventsOf, m2, if_true]
  rw [if_neg (by decide)]
  simp [run, step, start, release]

example := C98_busy_though_free 5 10 11 12 [20, 21, 22] rfl

/-- `Careful` by checking every prefix. -/
theorem careful_of_prefixes (evs : List Ev)
    (h1 : ∀ k, k < evs.length → ((evs[k]?).bind Ev.issued).isSome →
      inFlight (evs.take k) ≤ if Ev.connect ∈ evs.take k then 1 else 0)
    (h2 : ∀ k, k < evs.length → evs[k]? = some .connect → Ev.connect ∉ evs.take k) : Careful evs := by
  refine ⟨?_, ?_⟩
  · intro pre n post h
    have hp : evs.take pre.length = pre := by rw [h]; simp
    have := h1 pre.length (by rw [h]; simp) (by rw [h]; simp [Ev.issued])
    rwa [hp] at this
  · intro pre post h
    have hp : evs.take pre.length = pre := by rw [h]; simp
    have := h2 pre.length (by rw [h]; simp) (by rw [h]; simp)
    rwa [hp] at this

/-- Calls before and after the connection, never more than two at a time. -/
def demoCareful : List Ev := [.call 5, .connect, .call 6, .answer, .call 7, .answer, .answer, .shutdown]

theorem demoCareful_careful : Careful demoCareful :=
  careful_of_prefixes _ (by decide +kernel) (by decide +kernel)

example : (run start demoCareful).results = [(7, some 7), (6, some 6), (5, some 5)] := by decide +kernel

example := C98_two_in_flight_partial demoCareful demoCareful_careful

example := C98_before_connection [4, 5, 6] (by decide)

example := C98_in_turn 3 (by decide) demoPool 1

/-- Two runners, each with at most two calls at a time. -/
def demoCarefulPool : List PoolEv :=
  [.connect 0, .connect 1, .call 0, .call 1, .answer 1, .call 2, .call 3, .answer 0, .answer 1, .call 4]

example := C98_pool_partial 2 (by decide) demoCarefulPool (fun r hr => by
    obtain rfl | rfl : r = 0 ∨ r = 1 := by omega
    all_goals exact careful_of_prefixes _ (by decide +kernel) (by decide +kernel))
  0 (by decide) 0 (some 0) (by decide +kernel)

example : (run start [.connect, .call 1, .call 2, .call 3, .answer, .answer, .answer]).results =
      [(2, some 3), (3, some 3), (1, some 1)] ∧
    (run start [.call 1, .call 2, .connect, .answer, .answer]).results = [(1, some 2), (2, some 2)] := by
  decide +kernel

end ExecRunner
end Ade
