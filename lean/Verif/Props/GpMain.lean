import Verif.Model.GpMain
import Mathlib.Data.List.Induction
import Mathlib.Tactic.NormNum
import Mathlib.Tactic.FieldSimp
import Mathlib.Logic.Function.Iterate

/-!
# C127: the external program and the pipes to it
-/

set_option autoImplicit false

namespace Ade
namespace GpMain

variable {F : Type}

/-! ### Specification -/

/-- The answers to pairs of numbers: the value for each, up to the first one that is infinite. -/
def answers (A : Arith F) (ps : List (F × F)) : List F :=
  (ps.map fun a => A.gp a.1 a.2).takeWhile fun v => !A.isInf v

/-- All that has arrived. -/
def fed (es : List (Ev F)) : List (Tok F) :=
  es.flatMap fun
    | .feed ts => ts
    | _ => []

/-- Input and output stay open. -/
def Open (es : List (Ev F)) : Prop := .closeIn ∉ es ∧ .closeOut ∉ es

/-- The program does nothing more: it waits for input or has ended. -/
def Settled (A : Arith F) (p : Prog F) : Prop := pass A p = p

/-! ### The loop -/

/-- The program has answered the first `k` pairs, or has ended. -/
structure Inv (A : Arith F) (ps : List (F × F)) (T : List (Tok F)) (p : Prog F) : Prop where
  inOpen : p.inOpen = true
  outOpen : p.outOpen = true
  state : (p.ended = true ∧ p.out = answers A ps ∧ ∃ a ∈ ps, A.isInf (A.gp a.1 a.2) = true) ∨
    (p.ended = false ∧ ∃ k, k ≤ ps.length ∧ 2 * k ≤ T.length ∧ p.input = T.drop (2 * k) ∧
      p.out = (ps.take k).map (fun a => A.gp a.1 a.2) ∧ (∀ a ∈ ps.take k, A.isInf (A.gp a.1 a.2) = false) ∧
      ∀ a, (ps.take k).getLast? = some a → p.x = a.1 ∧ p.y = a.2)

theorem lines_length (ps : List (F × F)) : (ps.flatMap line).length = 2 * ps.length := by
  induction ps with
  | nil => rfl
  | cons a ps ih => simp [List.flatMap_cons, line] at ih ⊢; omega

theorem lines_drop (ps : List (F × F)) (k : ℕ) : (ps.flatMap line).drop (2 * k) = (ps.drop k).flatMap line := by
  induction k generalizing ps with
  | zero => rfl
  | succ k ih =>
    cases ps with
    | nil => rfl
    | cons a ps =>
      rw [List.drop_succ_cons, ← ih ps, List.flatMap_cons]
      show List.drop (2 * k + 1 + 1) (.num a.1 :: .num a.2 :: ps.flatMap line) = _
      rw [List.drop_succ_cons, List.drop_succ_cons]

theorem fresh_inv (A : Arith F) (ps : List (F × F)) (x y : F) : Inv A ps [] (fresh x y) :=
  ⟨rfl, rfl, .inr ⟨rfl, 0, Nat.zero_le _, Nat.zero_le _, rfl, rfl, by simp, by simp⟩⟩

theorem feed_inv (A : Arith F) (ps : List (F × F)) (T ts : List (Tok F)) (p : Prog F) (h : Inv A ps T p) :
    Inv A ps (T ++ ts) (step A p (.feed ts)) := by
  refine ⟨h.inOpen, h.outOpen, ?_⟩
  rcases h.state with hs | ⟨h0, k, h1, h2, h3, h4, h5, h6⟩
  · exact .inl hs
  · refine .inr ⟨h0, k, h1, by rw [List.length_append]; omega, ?_, h4, h5, h6⟩
    show p.input ++ ts = _
    rw [h3, List.drop_append_of_le_length h2]

theorem pass_inv (A : Arith F) (ps : List (F × F)) (T : List (Tok F)) (hT : T <+: ps.flatMap line) (p : Prog F)
    (h : Inv A ps T p) : Inv A ps T (pass A p) := by
  rcases h.state with hs | ⟨h0, k, h1, h2, h3, h4, h5, h6⟩
  · have : pass A p = p := by simp [pass, hs.1]
    rw [this]; exact h
  · have hd : T.drop (2 * k) <+: (ps.drop k).flatMap line := by
      rw [← lines_drop]; exact hT.drop _
    cases hps : ps.drop k with
    | nil =>
      rw [hps] at hd
      have he : p.input = [] := by rw [h3]; simpa using hd
      have : pass A p = p := by simp [pass, h0, scan, he, h.inOpen]
      rw [this]; exact h
    | cons a rest =>
      have hk : k < ps.length := by
        by_contra hc
        rw [List.drop_eq_nil_of_le (by omega)] at hps
        simp at hps
      have ha : ps[k] = a := by
        have := List.drop_eq_getElem_cons hk
        rw [hps] at this
        exact (List.cons.inj this).1.symm
      rw [hps, List.flatMap_cons] at hd
      rw [← h3] at hd
      cases hi : p.input with
      | nil =>
        have : pass A p = p := by simp [pass, h0, scan, hi, h.inOpen]
        rw [this]; exact h
      | cons t1 i1 =>
        rw [hi] at hd
        replace hd : t1 :: i1 <+: .num a.1 :: .num a.2 :: rest.flatMap line := hd
        rw [List.cons_prefix_cons] at hd
        obtain ⟨rfl, hd⟩ := hd
        cases i1 with
        | nil =>
          have : pass A p = p := by simp [pass, h0, scan, hi, h.inOpen]
          rw [this]; exact h
        | cons t2 i2 =>
          rw [List.cons_prefix_cons] at hd
          obtain ⟨rfl, hd⟩ := hd
          have hi2 : i2 = T.drop (2 * (k + 1)) := by
            have : T.drop (2 * k + 2) = (T.drop (2 * k)).drop 2 := by rw [List.drop_drop]
            rw [show 2 * (k + 1) = 2 * k + 2 by ring, this, ← h3, hi]; rfl
          have hl : 2 * (k + 1) ≤ T.length := by
            have : (T.drop (2 * k)).length = i2.length + 2 := by rw [← h3, hi]; rfl
            rw [List.length_drop] at this
            omega
          have htake : ps.take (k + 1) = ps.take k ++ [a] := by
            rw [List.take_add_one, List.getElem?_eq_getElem hk, ha]; rfl
          by_cases hinf : A.isInf (A.gp a.1 a.2) = true
          · have : pass A p = { p with x := a.1, y := a.2, input := i2, ended := true } := by
              simp [pass, h0, scan, hi, hinf]
            rw [this]
            refine ⟨h.inOpen, h.outOpen, .inl ⟨rfl, ?_, a, ?_, hinf⟩⟩
            · show p.out = _
              have : ps = ps.take k ++ a :: rest := by rw [← hps, List.take_append_drop]
              unfold answers
              rw [this, List.map_append, List.map_cons, h4]
              have hall : ∀ v ∈ (ps.take k).map (fun a => A.gp a.1 a.2), (!A.isInf v) = true := by
                intro v hv
                obtain ⟨b, hb, rfl⟩ := List.mem_map.1 hv
                simp [h5 b hb]
              rw [List.takeWhile_append_of_pos hall, List.takeWhile_cons]
              simp [hinf]
            · rw [← ha]; exact List.getElem_mem hk
          · have hinf : A.isInf (A.gp a.1 a.2) = false := by simpa using hinf
            have : pass A p = { p with x := a.1, y := a.2, input := i2, out := p.out ++ [A.gp a.1 a.2] } := by
              simp [pass, h0, scan, hi, hinf, h.outOpen]
            rw [this]
            refine ⟨h.inOpen, h.outOpen, .inr ⟨h0, k + 1, hk, hl, hi2, ?_, ?_, ?_⟩⟩
            · show p.out ++ _ = _
              rw [htake, List.map_append, h4]; rfl
            · intro b hb
              rw [htake, List.mem_append, List.mem_singleton] at hb
              rcases hb with hb | rfl
              · exact h5 b hb
              · exact hinf
            · intro b hb
              rw [htake, List.getLast?_append] at hb
              simp only [List.getLast?_singleton, Option.some_or, Option.some.injEq] at hb
              subst hb
              exact ⟨rfl, rfl⟩

theorem run_inv (A : Arith F) (ps : List (F × F)) (x y : F) (es : List (Ev F)) (ho : Open es)
    (hf : fed es <+: ps.flatMap line) : Inv A ps (fed es) (run A (fresh x y) es) := by
  induction es using List.reverseRecOn with
  | nil => exact fresh_inv A ps x y
  | append_singleton es e ih =>
    have ho' : Open es := ⟨fun h => ho.1 (by simp [h]), fun h => ho.2 (by simp [h])⟩
    have hfe : fed (es ++ [e]) = fed es ++ fed [e] := by simp [fed]
    have ih := ih ho' ((hfe ▸ List.prefix_append _ _).trans hf)
    have hr : run A (fresh x y) (es ++ [e]) = step A (run A (fresh x y) es) e := by simp [run]
    rw [hr]
    cases e with
    | feed ts =>
      have : fed [Ev.feed ts] = ts := by simp [fed]
      rw [hfe, this]
      exact feed_inv A ps _ ts _ ih
    | closeIn => exact absurd (by simp) ho.1
    | closeOut => exact absurd (by simp) ho.2
    | pass =>
      have e1 : fed (es ++ [Ev.pass]) = fed es := by rw [hfe]; simp [fed]
      rw [e1]
      exact pass_inv A ps _ (e1 ▸ hf) _ ih

/-- C127: pairs of numbers, arriving in any pieces, are answered in order, each by its value; when the program waits or has
ended, all have been answered, up to the first one with an infinite value, which ends the program. -/
theorem C127_answers (A : Arith F) (x y : F) (ps : List (F × F)) (es : List (Ev F)) (ho : Open es)
    (hf : fed es = ps.flatMap line) :
    (run A (fresh x y) es).out <+: answers A ps ∧
    (Settled A (run A (fresh x y) es) → (run A (fresh x y) es).out = answers A ps ∧
      ((run A (fresh x y) es).ended = true ↔ ∃ a ∈ ps, A.isInf (A.gp a.1 a.2) = true)) := by
  have h := run_inv A ps x y es ho (hf ▸ List.prefix_refl _)
  generalize run A (fresh x y) es = p at h ⊢
  rcases h.state with ⟨h1, h2, h3⟩ | ⟨h0, k, h1, h2, h3, h4, h5, h6⟩
  · exact ⟨h2 ▸ List.prefix_refl _, fun _ => ⟨h2, fun _ => h3, fun _ => h1⟩⟩
  · have hall : ∀ v ∈ (ps.take k).map (fun a => A.gp a.1 a.2), (!A.isInf v) = true := by
      intro v hv
      obtain ⟨b, hb, rfl⟩ := List.mem_map.1 hv
      simp [h5 b hb]
    have hsplit : answers A ps = (ps.take k).map (fun a => A.gp a.1 a.2) ++ answers A (ps.drop k) := by
      conv_lhs => rw [← List.take_append_drop k ps]
      unfold answers
      rw [List.map_append, List.takeWhile_append_of_pos hall]
    refine ⟨by rw [h4, hsplit]; exact List.prefix_append _ _, fun hs => ?_⟩
    have hk : ps.drop k = [] := by
      cases hd : ps.drop k with
      | nil => rfl
      | cons a rest =>
        exfalso
        rw [hf, lines_drop, hd] at h3
        have h3 : p.input = .num a.1 :: .num a.2 :: rest.flatMap line := h3
        unfold Settled at hs
        by_cases hinf : A.isInf (A.gp a.1 a.2) = true
        · have : pass A p = { p with x := a.1, y := a.2, input := rest.flatMap line, ended := true } := by
            simp [pass, h0, scan, h3, hinf]
          rw [this] at hs
          have := congrArg Prog.ended hs
          simp [h0] at this
        · have : pass A p = { p with x := a.1, y := a.2, input := rest.flatMap line, out := p.out ++ [A.gp a.1 a.2] } := by
            simp [pass, h0, scan, h3, hinf, h.outOpen]
          rw [this] at hs
          have := congrArg (fun q => q.out.length) hs
          simp at this
    rw [hk] at hsplit
    have hnil : answers A ([] : List (F × F)) = [] := rfl
    rw [hnil, List.append_nil] at hsplit
    refine ⟨h4.trans hsplit.symm, fun he => absurd he (by simp [h0]), fun ⟨a, ha, hi⟩ => ?_⟩
    have hall' : ps.take k = ps := by
      have := List.take_append_drop k ps
      rw [hk, List.append_nil] at this
      exact this
    rw [hall'] at h5
    rw [h5 a ha] at hi
    simp at hi

/-- C127: as long as only numbers arrive and more may come, the program is soon done with what there is: it then waits or has
ended. -/
theorem C127_settles (A : Arith F) (p : Prog F) (hin : p.inOpen = true) (hj : .junk ∉ p.input) (n : ℕ)
    (hn : p.input.length ≤ 2 * n + 1) : Settled A (run A p (List.replicate n .pass)) := by
  induction n generalizing p with
  | zero =>
    show pass A p = p
    cases hi : p.input with
    | nil => simp [pass, scan, hi, hin]
    | cons t i =>
      rw [hi] at hn hj
      have : i = [] := by
        cases i with
        | nil => rfl
        | cons _ _ => simp at hn
      subst this
      cases t with
      | junk => simp at hj
      | num a => simp [pass, scan, hi, hin]
  | succ n ih =>
    rw [List.replicate_succ]
    show Settled A (run A (pass A p) (List.replicate n .pass))
    have stay : ∀ m, pass A p = p → Settled A (run A p (List.replicate m .pass)) := by
      intro m he
      have : run A p (List.replicate m .pass) = p := by
        induction m with
        | zero => rfl
        | succ m ihm =>
          rw [List.replicate_succ]
          show run A (pass A p) _ = p
          rw [he]; exact ihm
      rw [this]; exact he
    by_cases he : pass A p = p
    · rw [he]; exact stay n he
    · have hend : p.ended = false := by
        by_contra hc
        exact he (by simp [pass, hc])
      obtain ⟨a, b, rest, hi⟩ : ∃ a b rest, p.input = .num a :: .num b :: rest := by
        cases hi : p.input with
        | nil => exact absurd (by simp [pass, scan, hi, hin]) he
        | cons t i =>
          rw [hi] at hj
          cases t with
          | junk => simp at hj
          | num a =>
            cases i with
            | nil => exact absurd (by simp [pass, scan, hi, hin]) he
            | cons t' i' =>
              cases t' with
              | junk => simp at hj
              | num b => exact ⟨a, b, i', rfl⟩
      have hp : (pass A p).inOpen = true ∧ (pass A p).input = rest := by
        simp only [pass, hend, scan, hi, Bool.false_eq_true, if_false]
        split_ifs <;> exact ⟨hin, rfl⟩
      refine ih _ hp.1 ?_ ?_
      · rw [hp.2]; intro h; exact hj (by rw [hi]; simp [h])
      · rw [hp.2]; rw [hi] at hn; simp at hn; omega

/-- C127, negation of "ends with its input": at the end of the input the last value is printed again and again. -/
theorem C127_end_of_input (A : Arith F) (x y : F) (ps : List (F × F)) (a : F × F) (es : List (Ev F)) (ho : Open es)
    (hf : fed es = (ps ++ [a]).flatMap line) (hs : Settled A (run A (fresh x y) es))
    (hinf : ∀ b ∈ ps ++ [a], A.isInf (A.gp b.1 b.2) = false) (n : ℕ) :
    (run A (fresh x y) (es ++ .closeIn :: List.replicate n .pass)).ended = false ∧
    (run A (fresh x y) (es ++ .closeIn :: List.replicate n .pass)).out =
      (ps.map fun b => A.gp b.1 b.2) ++ List.replicate (n + 1) (A.gp a.1 a.2) := by
  obtain ⟨h1, h2⟩ := (C127_answers A x y _ es ho hf).2 hs
  have h := run_inv A (ps ++ [a]) x y es ho (hf ▸ List.prefix_refl _)
  have hr : run A (fresh x y) (es ++ .closeIn :: List.replicate n .pass) =
      run A { run A (fresh x y) es with inOpen := false } (List.replicate n .pass) := by
    simp [run, step]
  rw [hr]
  generalize run A (fresh x y) es = p at *
  have hend : p.ended = false := by
    by_contra hc
    obtain ⟨b, hb, hi⟩ := h2.1 (by simpa using hc)
    rw [hinf b hb] at hi
    simp at hi
  have hans : answers A (ps ++ [a]) = (ps ++ [a]).map fun b => A.gp b.1 b.2 := by
    unfold answers
    have : ∀ l : List F, (∀ v ∈ l, (!A.isInf v) = true) → (l.takeWhile fun v => !A.isInf v) = l := by
      intro l hl
      have := List.takeWhile_append_of_pos (l₂ := []) hl
      simpa using this
    apply this
    intro v hv
    obtain ⟨b, hb, rfl⟩ := List.mem_map.1 hv
    simp [hinf b hb]
  rcases h.state with ⟨hc, _⟩ | ⟨_, k, k1, k2, k3, k4, k5, k6⟩
  · rw [hend] at hc; simp at hc
  have hk : k = (ps ++ [a]).length := by
    have := congrArg List.length (k4.symm.trans (h1.trans hans))
    simp only [List.length_map, List.length_take] at this
    omega
  have hin : p.input = [] := by
    rw [k3, hf, List.drop_eq_nil_of_le]
    rw [lines_length, hk]
  have hxy : p.x = a.1 ∧ p.y = a.2 := k6 a (by rw [hk, List.take_length]; simp)
  have key : ∀ (n : ℕ) (q : Prog F), q.ended = false → q.input = [] → q.inOpen = false → q.outOpen = true → q.x = a.1 →
      q.y = a.2 → (run A q (List.replicate n .pass)).ended = false ∧
        (run A q (List.replicate n .pass)).out = q.out ++ List.replicate n (A.gp a.1 a.2) := by
    intro n
    induction n with
    | zero => intro q q1 _ _ _ _ _; exact ⟨q1, by simp [run]⟩
    | succ n ih =>
      intro q q1 q2 q3 q4 q5 q6
      have hv := hinf a (by simp)
      have hp : pass A q = { q with out := q.out ++ [A.gp a.1 a.2] } := by
        have e1 : q = ⟨a.1, a.2, [], false, true, q.out, false⟩ := by
          cases q; simp only at q1 q2 q3 q4 q5 q6; subst q1 q2 q3 q4 q5 q6; rfl
        rw [e1]
        simp [pass, scan, hv]
      rw [List.replicate_succ]
      show (run A (pass A q) _).ended = false ∧ (run A (pass A q) _).out = _
      rw [hp]
      obtain ⟨r1, r2⟩ := ih { q with out := q.out ++ [A.gp a.1 a.2] } q1 q2 q3 q4 q5 q6
      refine ⟨r1, r2.trans ?_⟩
      rw [List.append_assoc, List.replicate_succ]; rfl
  obtain ⟨r1, r2⟩ := key n { p with inOpen := false } hend hin rfl h.outOpen hxy.1 hxy.2
  refine ⟨r1, r2.trans ?_⟩
  show p.out ++ _ = _
  rw [h1, hans, List.map_append, List.append_assoc, List.replicate_succ]; rfl

/-- C127, negation of "reports what it cannot read": at a text that is not a number the program prints the value for its last
numbers again and again, whatever arrives later. -/
theorem C127_junk (A : Arith F) (p : Prog F) (rest : List (Tok F)) (hi : p.input = .junk :: rest) (he : p.ended = false)
    (hout : p.outOpen = true) (hv : A.isInf (A.gp p.x p.y) = false) (es : List (Ev F)) (hc : .closeOut ∉ es) :
    (run A p es).ended = false ∧ ∃ m, (run A p es).out = p.out ++ List.replicate m (A.gp p.x p.y) ∧
      m = (es.filter fun | .pass => true | _ => false).length := by
  induction es generalizing p rest with
  | nil => exact ⟨he, 0, by simp [run], rfl⟩
  | cons e es ih =>
    have hc' : .closeOut ∉ es := fun h => hc (by simp [h])
    show (run A (step A p e) es).ended = false ∧ ∃ m, (run A (step A p e) es).out = _ ∧ _
    cases e with
    | feed ts =>
      obtain ⟨r1, m, r2, r3⟩ := ih (step A p (.feed ts)) (rest ++ ts) (by simp [step, hi]) he hout hv hc'
      exact ⟨r1, m, r2, by simpa using r3⟩
    | closeIn =>
      obtain ⟨r1, m, r2, r3⟩ := ih (step A p .closeIn) rest hi he hout hv hc'
      exact ⟨r1, m, r2, by simpa using r3⟩
    | closeOut => simp at hc
    | pass =>
      have hp : step A p .pass = { p with out := p.out ++ [A.gp p.x p.y] } := by
        have : { p with input := .junk :: rest } = p := by rw [← hi]
        simp only [step, pass, he, scan, hi, hv, hout, Bool.false_eq_true, if_false, if_true]
      rw [hp]
      obtain ⟨r1, m, r2, r3⟩ := ih { p with out := p.out ++ [A.gp p.x p.y] } rest hi he hout hv hc'
      refine ⟨r1, m + 1, r2.trans ?_, by simpa using r3⟩
      rw [List.append_assoc, List.replicate_succ]; rfl

/-- C127: when the parent has gone, so that both pipes are closed, the program ends as soon as it goes on. -/
theorem C127_parent_gone (A : Arith F) (p : Prog F) : (run A p [.closeIn, .closeOut, .pass]).ended = true := by
  show (pass A { p with inOpen := false, outOpen := false }).ended = true
  unfold pass
  split_ifs with h
  · exact h
  · have : ∃ x y r, scan { p with inOpen := false, outOpen := false } = some (x, y, r) := by
      unfold scan
      dsimp only
      split <;> simp
    obtain ⟨x, y, r, hs⟩ := this
    rw [hs]
    dsimp only
    split_ifs with h1 h2
    · rfl
    · exact h2.elim
    · rfl

/-! ### The protocol and the program -/

theorem release_inputs (s : ExecRunner.St) (w : List (ℕ × ExecRunner.Stage)) :
    s.inputs <+: (ExecRunner.release s w).inputs := by
  induction w with
  | nil => exact List.prefix_refl _
  | cons p w ih =>
    obtain ⟨n, st⟩ := p
    cases st with
    | toWrite => exact List.prefix_append _ _
    | toRead => exact ih

/-- All lines written so far are those answered and those not answered, and the program has the latter before it or has
printed their values. -/
structure PairInv (A : Arith F) (args : ℕ → F × F) (c : Pair F) : Prop where
  inOpen : c.prog.inOpen = true
  outOpen : c.prog.outOpen = true
  ended : c.prog.ended = false
  k : c.served.length ≤ c.prog.out.length
  out : ∃ done todo : List ℕ, c.served.map Prod.fst ++ c.er.inputs = done ++ todo ∧
    c.prog.out = done.map (fun n => A.gp (args n).1 (args n).2) ∧
    c.prog.input = todo.flatMap fun n => line (args n)
  values : ∀ p ∈ c.served, p.2 = A.gp (args p.1).1 (args p.1).2

theorem wrote_inv (A : Arith F) (args : ℕ → F × F) (c : Pair F) (s' : ExecRunner.St) (h : PairInv A args c)
    (hp : c.er.inputs <+: s'.inputs) : PairInv A args (c.wrote args c.er.inputs.length s') := by
  obtain ⟨new, hn⟩ := hp
  have hd : s'.inputs.drop c.er.inputs.length = new := by rw [← hn]; simp
  obtain ⟨done, todo, e1, e2, e3⟩ := h.out
  refine ⟨h.inOpen, h.outOpen, h.ended, h.k, ⟨done, todo ++ new, ?_, e2, ?_⟩, h.values⟩
  · show c.served.map Prod.fst ++ s'.inputs = _
    rw [← hn, ← List.append_assoc, e1, List.append_assoc]
  · show c.prog.input ++ (s'.inputs.drop c.er.inputs.length).flatMap _ = _
    rw [hd, e3, List.flatMap_append]

theorem pair_step_inv (A : Arith F) (args : ℕ → F × F) (hinf : ∀ n, A.isInf (A.gp (args n).1 (args n).2) = false)
    (c : Pair F) (h : PairInv A args c) (e : PairEv) : PairInv A args (c.step A args e) := by
  cases e with
  | call n =>
    refine wrote_inv A args c _ h ?_
    simp only [ExecRunner.step]
    split_ifs
    · exact List.prefix_refl _
    · exact List.prefix_append _ _
  | connect =>
    refine wrote_inv A args c _ h ?_
    simp only [ExecRunner.step]
    split_ifs
    · exact release_inputs _ _
    · exact List.prefix_refl _
  | pass =>
    obtain ⟨done, todo, e1, e2, e3⟩ := h.out
    show PairInv A args { c with prog := pass A c.prog }
    cases todo with
    | nil =>
      have hp : pass A c.prog = c.prog := by
        have : c.prog.input = [] := e3
        simp [pass, h.ended, scan, this, h.inOpen]
      rw [hp]; exact h
    | cons n todo =>
      have e3 : c.prog.input = .num (args n).1 :: .num (args n).2 :: todo.flatMap fun n => line (args n) := e3
      have hp : pass A c.prog =
          { c.prog with
            x := (args n).1
            y := (args n).2
            input := todo.flatMap fun n => line (args n)
            out := c.prog.out ++ [A.gp (args n).1 (args n).2] } := by
        simp [pass, h.ended, scan, e3, hinf n, h.outOpen]
      rw [hp]
      refine ⟨h.inOpen, h.outOpen, h.ended, ?_, ⟨done ++ [n], todo, ?_, ?_, rfl⟩, h.values⟩
      · have := h.k
        simp only [List.length_append]
        omega
      · simpa using e1
      · simp [e2]
  | received =>
    unfold Pair.step
    cases hi : c.er.inputs with
    | nil => exact h
    | cons n rest =>
      cases hv : c.prog.out[c.served.length]? with
      | none => exact h
      | some v =>
        dsimp only
        obtain ⟨done, todo, e1, e2, e3⟩ := h.out
        have hpre : rest <+: (ExecRunner.step c.er .answer).inputs := by
          simp only [ExecRunner.step, hi]
          split_ifs
          · exact release_inputs { c.er with inputs := rest, response := some n } c.er.waiting
          · exact List.prefix_refl _
        obtain ⟨new, hn⟩ := hpre
        have hd : (ExecRunner.step c.er .answer).inputs.drop rest.length = new := by rw [← hn]; simp
        rw [hi] at e1
        have hlt : c.served.length < done.length := by
          have := (List.getElem?_eq_some_iff.1 hv).1
          rw [e2, List.length_map] at this
          exact this
        have hnv : v = A.gp (args n).1 (args n).2 := by
          have hdn : done[c.served.length]? = some n := by
            have := congrArg (fun l => l[c.served.length]?) e1
            simp only [List.getElem?_append_left hlt] at this
            rw [← this, List.getElem?_append_right (by simp)]
            simp
          rw [e2, List.getElem?_map, hdn] at hv
          simpa using hv.symm
        refine ⟨h.inOpen, h.outOpen, h.ended, ?_, ⟨done, todo ++ new, ?_, e2, ?_⟩, ?_⟩
        · show (c.served ++ [(n, v)]).length ≤ c.prog.out.length
          rw [e2, List.length_map, List.length_append]
          simpa using hlt
        · show (c.served ++ [(n, v)]).map Prod.fst ++ (ExecRunner.step c.er .answer).inputs = _
          rw [← hn, ← List.append_assoc done, ← e1]
          simp
        · show c.prog.input ++ ((ExecRunner.step c.er .answer).inputs.drop rest.length).flatMap _ = _
          rw [hd, e3, List.flatMap_append]
        · intro p hp
          have hp : p ∈ c.served ++ [(n, v)] := hp
          rw [List.mem_append, List.mem_singleton] at hp
          rcases hp with hp | rfl
          · exact h.values p hp
          · exact hnv

/-- C127: the program serves its protocol: each line received, for as long as no value is infinite, is the value for the
arguments of the command written first of those not answered, and a line is never received without such a command. -/
theorem C127_served (A : Arith F) (args : ℕ → F × F) (hinf : ∀ n, A.isInf (A.gp (args n).1 (args n).2) = false) (x y : F)
    (es : List PairEv) :
    (∀ p ∈ ((Pair.start x y).run A args es).served, p.2 = A.gp (args p.1).1 (args p.1).2) ∧
    ((Pair.start x y).run A args es).prog.out.length ≤
      ((Pair.start x y).run A args es).served.length + ((Pair.start x y).run A args es).er.inputs.length := by
  have h : PairInv A args ((Pair.start x y).run A args es) := by
    unfold Pair.run
    induction es using List.reverseRecOn with
    | nil => exact ⟨rfl, rfl, rfl, Nat.le_refl _, ⟨[], [], rfl, rfl, rfl⟩, by intro p hp; simp [Pair.start] at hp⟩
    | append_singleton es e ih =>
      rw [List.foldl_append]
      exact pair_step_inv A args hinf _ ih e
  refine ⟨h.values, ?_⟩
  obtain ⟨done, todo, e1, e2, -⟩ := h.out
  have := congrArg List.length e1
  simp only [List.length_append, List.length_map] at this
  rw [e2, List.length_map]
  omega

/-- C127, negation of "the example ends in any case": if the program never answers, for example because it has not been
compiled, no evaluation ever ends. -/
theorem C127_not_compiled (evs : List ExecRunner.Ev) (h : .answer ∉ evs) (hc : evs.count .connect ≤ 1) :
    (ExecRunner.run ExecRunner.start evs).results = [] := by
  have key : ∀ evs : List ExecRunner.Ev, .answer ∉ evs → evs.count .connect ≤ 1 →
      let s := ExecRunner.run ExecRunner.start evs
      s.results = [] ∧ s.running = none ∧
        (evs.count .connect = 0 → s.locked = true ∧ ∀ p ∈ s.waiting, p.2 = ExecRunner.Stage.toWrite) := by
    intro evs
    induction evs using List.reverseRecOn with
    | nil => intro _ _; exact ⟨rfl, rfl, fun _ => ⟨rfl, by simp [ExecRunner.run, ExecRunner.start]⟩⟩
    | append_singleton evs e ih =>
      intro h hc
      have hcount : (evs ++ [e]).count .connect = evs.count .connect + [e].count .connect := List.count_append
      obtain ⟨i1, i2, i3⟩ := ih (fun hm => h (by simp [hm])) (by omega)
      have hr : ExecRunner.run ExecRunner.start (evs ++ [e]) = ExecRunner.step (ExecRunner.run ExecRunner.start evs) e := by
        simp [ExecRunner.run]
      simp only [hr]
      generalize ExecRunner.run ExecRunner.start evs = s at *
      cases e with
      | call n =>
        have h0 : [ExecRunner.Ev.call n].count .connect = 0 := by simp
        rw [hcount, h0]
        unfold ExecRunner.step
        dsimp only
        split_ifs with hl
        · refine ⟨i1, i2, fun hz => ⟨hl, ?_⟩⟩
          intro p hp
          rw [List.mem_append, List.mem_singleton] at hp
          rcases hp with hp | rfl
          · exact (i3 (by omega)).2 p hp
          · rfl
        · exact ⟨i1, i2, fun hz => absurd (i3 (by omega)).1 (by simp [hl])⟩
      | connect =>
        have h1 : [ExecRunner.Ev.connect].count .connect = 1 := by simp
        obtain ⟨hl, hw⟩ := i3 (by omega)
        refine ⟨?_, ?_, fun hz => by omega⟩
        · simp only [ExecRunner.step, hl, if_true]
          cases hwait : s.waiting with
          | nil => exact i1
          | cons p w =>
            obtain ⟨n, st⟩ := p
            have : st = .toWrite := hw (n, st) (by rw [hwait]; simp)
            subst this
            exact i1
        · simp only [ExecRunner.step, hl, if_true]
          cases hwait : s.waiting with
          | nil => exact i2
          | cons p w =>
            obtain ⟨n, st⟩ := p
            have : st = .toWrite := hw (n, st) (by rw [hwait]; simp)
            subst this
            exact i2
      | answer => exact absurd (by simp) h
      | shutdown =>
        have h0 : [ExecRunner.Ev.shutdown].count .connect = 0 := by simp
        have hs : ExecRunner.step s .shutdown = s := by simp [ExecRunner.step, i2]
        rw [hs, hcount, h0]
        exact ⟨i1, i2, fun hz => i3 (by omega)⟩
  exact (key evs h hc).1

/-- C127: the example ends if and only if the setup, the run and the shutting down of the pool all come to an end without an
error; what it does then, it does in this order. -/
theorem C127_ends_iff (setup run pool : Ending) :
    (.stop ∈ solver setup run pool ↔ setup = .done ∧ run = .done ∧ pool = .done) ∧
    solver setup run pool <+: [.setup, .addCallback, .evolve, .shutdownPool, .summary, .stop] := by
  cases setup <;> cases run <;> cases pool <;> decide

/-! ### Examples -/

namespace Demo

/-- Rational arithmetic, with the largest value of single precision. -/
def A : Arith ℚ := ⟨GoldsteinPrice.gp, fun v => decide (2 ^ 128 ≤ |v|)⟩

/-- Two pairs in three pieces, with passes in between. -/
def es : List (Ev ℚ) := [.feed [.num 0], .pass, .feed [.num (-1), .num 0], .pass, .pass, .feed [.num 0], .pass]

example := C127_answers A 7 7 [(0, -1), (0, 0)] es ⟨by decide, by decide⟩ rfl

/-- The values are 3 and 600; the program then waits. -/
example : (run A (fresh 7 7) es).out = [3, 600] ∧ Settled A (run A (fresh 7 7) es) := by
  constructor
  · decide +kernel
  · unfold Settled; decide +kernel

/-- The pair that the documentation gives for ending the program does end it. -/
example : (run A (fresh 7 7) [.feed [.num 99999, .num 99999], .pass]).ended = true := by decide +kernel

example := C127_settles A (run A (fresh 7 7) [.feed [.num 0, .num 1, .num 2]]) rfl (by decide) 1 (by decide)

example := C127_end_of_input A 7 7 [(0, 0)] (0, -1) [.feed [.num 0, .num 0, .num 0, .num (-1)], .pass, .pass]
  ⟨by decide, by decide⟩ rfl (by unfold Settled; decide +kernel) (by decide +kernel) 3

example := C127_junk A ⟨0, -1, [.junk, .num 0, .num 0], true, true, [3], false⟩ [.num 0, .num 0] rfl rfl rfl (by decide +kernel)
  [.pass, .feed [.num 1, .num 1], .pass, .closeIn, .pass] (by decide)

example := C127_served A (fun n => if n = 1 then (0, 0) else (0, -1)) (by
  intro n
  by_cases h : n = 1
  · rw [if_pos h]; decide +kernel
  · rw [if_neg h]; decide +kernel) 0 0
  [.call 1, .call 2, .connect, .pass, .received]

example := C127_not_compiled [.call 1, .connect, .call 2, .shutdown, .call 3] (by decide) (by decide)

example := (C127_ends_iff .done .never .done).1

end Demo

end GpMain
end Ade
