import Verif.Props.Reporter

/-!
# C145: the characters that show progress

What a report prints, of one individual or of a challenger and its target, as documented at ade/report.py:372-425.
-/

set_option autoImplicit false

namespace Ade
namespace Reporter

/-! ## What the callbacks leave alone -/

theorem whileLoop_with (n : ℕ) (s : St) (cs : List Char) :
    whileLoop n { s with chars := cs } = { whileLoop n s with chars := cs } := by
  unfold whileLoop
  dsimp only
  cases s.bag with
  | none => rfl
  | some i =>
    dsimp only
    split
    · rfl
    · split
      · rfl
      · split <;> rfl

theorem runCallbacks_with (n : ℕ) (s : St) (i : ℕ) (o : Option ℕ) (cs : List Char) :
    runCallbacks n { s with chars := cs } i o = { runCallbacks n s i o with chars := cs } := by
  unfold runCallbacks
  dsimp only
  split
  · exact whileLoop_with n { s with bag := some i, iPrev := none, prevBest := o } cs
  · rfl

/-- The characters do not matter for what else is done, and are not changed by it. -/
theorem newBest_with (n : ℕ) (s : St) (i : ℕ) (f : Bool) (cs : List Char) :
    newBest n { s with chars := cs } i f = { newBest n s i f with chars := cs } := by
  have key : ∀ (t : St) (g : Bool), (if g = true then runCallbacks n { { t with chars := cs } with iLast := some i } i t.iBest
      else { t with chars := cs }) =
      { (if g = true then runCallbacks n { t with iLast := some i } i t.iBest else t) with chars := cs } := by
    intro t g
    cases g
    · rfl
    · exact runCallbacks_with n { t with iLast := some i } i t.iBest cs
  have hb : better { s with chars := cs } i = better s i := rfl
  unfold newBest
  dsimp only
  rw [hb]
  cases better s i
  · exact key s _
  · exact key { s with iBest := some i } _

theorem newBest_chars (n : ℕ) (s : St) (i : ℕ) (f : Bool) : (newBest n s i f).chars = s.chars := by
  have h : newBest n s i f = { newBest n s i f with chars := s.chars } := newBest_with n s i f s.chars
  rw [h]

theorem newBest_iBest (n : ℕ) (s : St) (i : ℕ) (f : Bool) :
    (newBest n s i f).iBest = if better s i then some i else s.iBest := by
  have key : ∀ (t : St) (g : Bool), (if g = true then runCallbacks n { t with iLast := some i } i t.iBest else t).iBest =
      t.iBest := by
    intro t g
    cases g
    · rfl
    · exact runCallbacks_best _ _ _ _
  unfold newBest
  dsimp only
  cases better s i
  · exact key s _
  · exact key { s with iBest := some i } _

theorem put_false (s : St) (c : Char) : (put s false c).chars = s.chars ++ [c] ∧ (put s false c).iBest = s.iBest :=
  ⟨rfl, rfl⟩

/-- The character for the rounded ratio. -/
def ratioMark : Option ℕ → Char
  | none => 'X'
  | some r => Nat.digitChar (min r 9)

/-! ## C145: one individual -/

/-- C145, what holds of the report of one individual that has a score: it returns nothing.  The first one becomes the best and is
shown as `*`; one with a lower score than the best becomes the best and is shown as `!`; any other one leaves the best as it is
and is shown by a digit: 0 within two percent of the best score, otherwise the whole number nearest to the quotient of the
scores, cut off at 9.

The full property also asks for `#` if the evaluation failed, and has the same for reports that are forced;
`C145_failed` and `C145_forced` show that the code does not do so. -/
theorem C145_one_partial (n : ℕ) (s : St) (i : ℕ) (x : ℚ) (hr : s.running = true) (hx : Scored (s.store i) x) :
    let r := report n s i none false false
    r.2 = none ∧
    (s.iBest = none → r.1.chars = s.chars ++ ['*'] ∧ r.1.iBest = some i) ∧
    ∀ b y, s.iBest = some b → Scored (s.store b) y →
      (x < y → r.1.chars = s.chars ++ ['!'] ∧ r.1.iBest = some i) ∧
      (y ≤ x → r.1.iBest = some b) ∧
      (y ≤ x → 0 < x → x - y < x / 50 → r.1.chars = s.chars ++ ['0']) ∧
      (0 < y → x / 50 ≤ x - y →
        ∃ k : ℕ, 1 ≤ k ∧ Nearest k (x / y) ∧ r.1.chars = s.chars ++ [Nat.digitChar (min k 9)]) ∧
      (y = 0 → 0 < x → r.1.chars = s.chars ++ ['9']) := by
  intro r
  have hrep : r = call n s i none false false := by
    show report n s i none false false = _
    unfold report
    simp only [hr, Bool.not_true, Bool.false_eq_true, if_false]
    have h2 : (call n s i none false false).2 = none := by
      unfold call
      simp only [hx.toBool, Bool.not_true, Bool.false_eq_true, if_false]
      cases s.iBest with
      | none => rfl
      | some b => dsimp only; split <;> rfl
    rw [h2]
  have hcall : call n s i none false false = match s.iBest with
      | none => (put (newBest n s i false) false '*', none)
      | some b =>
        if (s.store i).lt (s.store b) then (put (newBest n s i false) false '!', none)
        else (put s false (msgRatio (s.store i) (s.store b) '#').2, none) := by
    unfold call
    simp only [hx.toBool, Bool.not_true, Bool.false_eq_true, if_false, Bool.or_false]
    rfl
  rw [hcall] at hrep
  refine ⟨?_, fun hb => ?_, fun b y hb hy => ?_⟩
  · rw [hrep]
    cases s.iBest with
    | none => rfl
    | some b => dsimp only; split <;> rfl
  · rw [hb] at hrep
    rw [hrep]
    dsimp only
    rw [(put_false _ _).1, (put_false _ _).2, newBest_chars, newBest_iBest]
    simp [better, hb]
  · rw [hb] at hrep
    dsimp only at hrep
    rw [hx.lt hy] at hrep
    have hchar : ∀ c, (msgRatio (s.store i) (s.store b) '#').2 = c → ¬ x < y →
        r.1.chars = s.chars ++ [c] ∧ r.1.iBest = some b := by
      intro c hc hn
      rw [hrep]
      simp only [hn, decide_false, Bool.false_eq_true, if_false]
      rw [hc]
      exact ⟨rfl, hb⟩
    have hC := C47_character hx hy '#'
    refine ⟨fun h => ?_, fun h => (hchar _ rfl (not_lt.2 h)).2, fun h h0 h1 => (hchar _ ?_ (not_lt.2 h)).1, fun h0 h1 => ?_,
      fun h0 h1 => (hchar _ ?_ (by rw [h0]; exact not_lt.2 h1.le)).1⟩
    · rw [hrep]
      simp only [h, decide_true, if_true]
      rw [(put_false _ _).1, (put_false _ _).2, newBest_chars, newBest_iBest]
      simp [better, hb, hx.lt hy, h]
    · rw [hC, (C47_zero_iff_partial hx hy h0 '#').2 ⟨h, h1⟩]
      rfl
    · obtain ⟨k, k1, k2, k3⟩ := C47_nearest hx hy h0 h1 '#'
      have hle : y ≤ x := by have := hx.2; linarith
      refine ⟨k, k2, k3, (hchar _ ?_ (not_lt.2 hle)).1⟩
      rw [hC, k1]
    · rw [hC]
      have : (msgRatio (s.store i) (s.store b) '#').1 = some 1000 := by
        rw [msgRatio_scored hx hy, if_neg (by rw [h0]; exact not_lt.2 h1.le), if_neg, if_pos h0]
        rw [equivSSE_iff h1 (by rw [h0]; exact h1.le), h0]
        intro hc
        linarith
      rw [this]
      rfl

/-- C145, negation: an individual whose evaluation failed is shown as `%` and not as documented by `#`, which is the character
for one whose score is not a number or infinite.  In both cases the best stays the best and nothing is returned. -/
theorem C145_failed (n : ℕ) (s : St) (i : ℕ) (hr : s.running = true) :
    ((s.store i).toBool = false → ∀ f, report n s i none false f = ({ s with chars := s.chars ++ ['%'] }, none)) ∧
    ∀ b y, s.iBest = some b → Scored (s.store b) y → (s.store i).stored = some .nan ∨ (s.store i).stored = some .pinf →
      report n s i none false false = ({ s with chars := s.chars ++ ['#'] }, none) := by
  constructor
  · intro hi f
    have hc : call n s i none false f = (put s false '%', none) := by
      unfold call
      simp only [hi, Bool.not_false, if_true]
    unfold report
    rw [if_neg (by simp [hr])]
    dsimp only
    rw [hc]
    rfl
  · intro b y hb hy hi
    have htb : (s.store i).toBool = true := by
      rcases hi with h | h <;> simp [Individual.toBool, h] <;> decide
    have hlt : (s.store i).lt (s.store b) = false := by
      have hf : (s.store i).toFloat = .nan ∨ (s.store i).toFloat = .pinf := by
        rcases hi with h | h <;> simp [Individual.toFloat, Individual.SSE, h, PyFloat.lt, PyFloat.zero]
      rw [Individual.lt, hy.toFloat]
      rcases hf with h | h <;> rw [h] <;> rfl
    have hm : msgRatio (s.store i) (s.store b) '#' = (some 1000, '#') := (C47_bogus_old hi '#').1 y hy
    have hc : call n s i none false false = (put s false '#', none) := by
      unfold call
      simp only [htb, hb, hlt, hm, Bool.not_true, Bool.false_eq_true, if_false, Bool.or_false]
    unfold report
    rw [if_neg (by simp [hr])]
    dsimp only
    rw [hc]
    rfl

/-- C145, negation: with a forced report `!` is shown also for an individual that is no better than the best, which stays the
best. -/
theorem C145_forced (n : ℕ) (s : St) (i b : ℕ) (x y : ℚ) (hr : s.running = true) (hx : Scored (s.store i) x)
    (hb : s.iBest = some b) (hy : Scored (s.store b) y) (h : y ≤ x) :
    let r := report n s i none false true
    r.2 = none ∧ r.1.chars = s.chars ++ ['!'] ∧ r.1.iBest = some b := by
  intro r
  have hrep : r = (put (newBest n s i true) false '!', none) := by
    show report n s i none false true = _
    unfold report call
    simp only [hr, hx.toBool, hb, Bool.not_true, Bool.false_eq_true, if_false, Bool.or_true, if_true]
  rw [hrep]
  refine ⟨rfl, ?_, ?_⟩
  · rw [(put_false _ _).1, newBest_chars]
  · rw [(put_false _ _).2, newBest_iBest]
    simp [better, hb, hx.lt hy, h]

/-! ## C145: a challenger and its target -/

/-- C145: the report of a challenger and its target shows the ratio it returns (see C47), `X` if there is none, and then `+` if the
challenger is the first individual reported or has a lower score than the best, in which case it becomes the best. -/
theorem C145_two (n : ℕ) (s : St) (i o : ℕ) (f : Bool) (a b : ℚ) (hr : s.running = true) (ho : Scored (s.store o) a)
    (hi : Scored (s.store i) b) :
    let r := report n s i (some o) false f
    (s.iBest = none ∨ (∃ k y, s.iBest = some k ∧ Scored (s.store k) y ∧ b < y) →
      r.1.chars = s.chars ++ [ratioMark r.2, '+'] ∧ r.1.iBest = some i) ∧
    ((∃ k y, s.iBest = some k ∧ Scored (s.store k) y ∧ y ≤ b) →
      r.1.chars = s.chars ++ [ratioMark r.2] ∧ r.1.iBest = s.iBest) := by
  intro r
  have hC := C47_character ho hi '!'
  have hmark : (msgRatio (s.store o) (s.store i) '!').2 = ratioMark (msgRatio (s.store o) (s.store i) '!').1 := by
    rw [hC]
    cases (msgRatio (s.store o) (s.store i) '!').1 <;> rfl
  have hfst : r.2 = (msgRatio (s.store o) (s.store i) '!').1 ∧
      r.1.chars = (call n s i (some o) false f).1.chars ∧ r.1.iBest = (call n s i (some o) false f).1.iBest := by
    have h2 : (call n s i (some o) false f).2 = (msgRatio (s.store o) (s.store i) '!').1 := by
      unfold call; dsimp only; split <;> rfl
    show (report n s i (some o) false f).2 = _ ∧ (report n s i (some o) false f).1.chars = _ ∧
      (report n s i (some o) false f).1.iBest = _
    unfold report
    simp only [hr, Bool.not_true, Bool.false_eq_true, if_false]
    rw [← h2]
    cases h : (call n s i (some o) false f).2 with
    | none => exact ⟨h, rfl, rfl⟩
    | some q => exact ⟨rfl, rfl, rfl⟩
  rw [hfst.2.1, hfst.2.2, hfst.1, ← hmark]
  have hbt : better (put s false (msgRatio (s.store o) (s.store i) '!').2) i = better s i := rfl
  constructor
  · intro h
    have hb : better s i = true := by
      rcases h with h | ⟨k, y, h, hy, hlt⟩
      · simp [better, h]
      · simp [better, h, hi.lt hy, hlt]
    unfold call
    dsimp only
    rw [hbt, if_pos hb]
    dsimp only
    rw [(put_false _ _).1, (put_false _ _).2, newBest_chars, newBest_iBest, hbt, if_pos hb]
    exact ⟨by rw [(put_false _ _).1, List.append_assoc]; rfl, rfl⟩
  · rintro ⟨k, y, h, hy, hle⟩
    have hb : better s i = false := by simp [better, h, hi.lt hy, hle]
    unfold call
    dsimp only
    rw [hbt, if_neg (by simp [hb])]
    exact ⟨rfl, rfl⟩

/-! ## C145: no characters -/

/-- C145: with `noProgress` nothing is shown, and nothing else is different. -/
theorem C145_silent (n : ℕ) (s : St) (i : ℕ) (o : Option ℕ) (f : Bool) :
    (report n s i o true f).1.chars = s.chars ∧
      (report n s i o false f).2 = (report n s i o true f).2 ∧
      { (report n s i o false f).1 with chars := s.chars } = (report n s i o true f).1 := by
  have key : (call n s i o true f).1.chars = s.chars ∧ (call n s i o false f).2 = (call n s i o true f).2 ∧
      { (call n s i o false f).1 with chars := s.chars } = (call n s i o true f).1 := by
    have hn : { newBest n s i f with chars := s.chars } = newBest n s i f := (newBest_with n s i f s.chars).symm
    cases o with
    | none =>
      unfold call
      dsimp only
      split
      · exact ⟨rfl, rfl, rfl⟩
      · split
        · exact ⟨newBest_chars n s i f, rfl, hn⟩
        · split
          · exact ⟨newBest_chars n s i f, rfl, hn⟩
          · exact ⟨rfl, rfl, rfl⟩
    | some o =>
      generalize hm : msgRatio (s.store o) (s.store i) '!' = m
      have hbt : ∀ np, better (put s np m.2) i = better s i := fun np => by cases np <;> rfl
      have hput : newBest n (put s false m.2) i f = { newBest n s i f with chars := s.chars ++ [m.2] } :=
        newBest_with n s i f _
      have hput' : newBest n (put s true m.2) i f = newBest n s i f := rfl
      unfold call
      dsimp only
      rw [hm, hbt, hbt]
      cases better s i
      · exact ⟨rfl, rfl, rfl⟩
      · rw [if_pos rfl, if_pos rfl, hput, hput']
        refine ⟨newBest_chars n s i f, rfl, ?_⟩
        have : ∀ t : St, { t with chars := s.chars } = t → ({ { put { t with chars := s.chars ++ [m.2] } false '+' with
            repl := (put { t with chars := s.chars ++ [m.2] } false '+').repl ++ [1] } with chars := s.chars } : St) =
            { put t true '+' with repl := (put t true '+').repl ++ [1] } := by
          intro t ht
          conv_rhs => rw [← ht]
          rfl
        exact this _ hn
  obtain ⟨k1, k2, k3⟩ := key
  unfold report
  split
  · exact ⟨rfl, rfl, rfl⟩
  · dsimp only
    rw [k2]
    cases (call n s i o true f).2 with
    | none => exact ⟨k1, k2, k3⟩
    | some q =>
      refine ⟨k1, rfl, ?_⟩
      rw [← k3]

/-! ## Examples -/

namespace Demo

/-- Three individuals with scores 5, 2 and 12, one whose evaluation failed, one without a usable score. -/
def store : ℕ → Individual := fun k =>
  [⟨some (.fin 5), [1]⟩, ⟨some (.fin 2), [2]⟩, ⟨some (.fin 12), [3]⟩, ⟨some (.fin (-1)), [4]⟩].getD k ⟨some .nan, [5]⟩

/-- After the report of the first one. -/
def after : St := (report 0 (new store) 0 none false false).1

example := C145_one_partial 0 after 2 12 rfl ⟨rfl, by norm_num⟩

example := C145_failed 0 after 3 rfl

example := C145_forced 0 after 2 0 12 5 rfl ⟨rfl, by norm_num⟩ rfl ⟨rfl, by norm_num⟩ (by norm_num)

example := C145_two 0 after 1 0 false 5 2 rfl ⟨rfl, by norm_num⟩ ⟨rfl, by norm_num⟩

example := C145_silent 0 after 1 (some 0) false

/-- All kinds of reports in a row. -/
example : ([(1, some 0), (2, some 1), (2, none), (3, none), (4, none)].foldl
    (fun s x => (report 0 s x.1 x.2 false false).1) after).chars = "*2+X6%#".toList := by decide +kernel

end Demo

end Reporter
end Ade
