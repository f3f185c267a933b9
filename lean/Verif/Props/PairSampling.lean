import Mathlib.Algebra.Order.BigOperators.Group.List
import Mathlib.Algebra.BigOperators.Group.List.Basic
import Mathlib.Data.List.ProdSigma
import Mathlib.Data.Nat.Choose.Basic
import Mathlib.Tactic.Ring
import Mathlib.Tactic.Linarith
import Verif.Model.PairSampling
import Verif.Props.ClosestPair

/-! C140: which pairs of records the closest-pair finder examines.  `np.random.choice` draws each row
uniformly and independently, so each sequence of random pairs of rows is as likely as any other of the same
length; chances are stated by counting such sequences. -/

set_option autoImplicit false

namespace Ade
namespace PairSampling

open ClosestPair

section Counting

variable {α : Type}

/-- All sequences of `L` draws from `A`. -/
def streams (A : List α) : Nat → List (List α)
  | 0 => [[]]
  | L + 1 => A.flatMap fun x => (streams A L).map (x :: ·)

theorem mem_streams (A : List α) (L : Nat) (d : List α) :
    d ∈ streams A L ↔ d.length = L ∧ ∀ x ∈ d, x ∈ A := by
  induction L generalizing d with
  | zero =>
    simp only [streams, List.mem_singleton]
    constructor
    · rintro rfl; simp
    · intro h; exact List.length_eq_zero_iff.1 h.1
  | succ L ih =>
    simp only [streams, List.mem_flatMap, List.mem_map]
    constructor
    · rintro ⟨x, hx, t, ht, rfl⟩
      have := (ih t).1 ht
      refine ⟨by simp [this.1], ?_⟩
      intro y hy
      rcases List.mem_cons.1 hy with rfl | hy
      · exact hx
      · exact this.2 y hy
    · rintro ⟨h1, h2⟩
      match d, h1, h2 with
      | [], h1, _ => simp at h1
      | x :: t, h1, h2 =>
        exact ⟨x, h2 x (by simp), t, (ih t).2 ⟨by simpa using h1, fun y hy => h2 y (by simp [hy])⟩, rfl⟩

theorem streams_length (A : List α) (L : Nat) : (streams A L).length = A.length ^ L := by
  induction L with
  | zero => rfl
  | succ L ih => simp [streams, List.length_flatMap, ih, pow_succ, Nat.mul_comm]

theorem streams_nodup (A : List α) (hA : A.Nodup) (L : Nat) : (streams A L).Nodup := by
  induction L with
  | zero => simp [streams]
  | succ L ih =>
    unfold streams
    rw [List.nodup_flatMap]
    refine ⟨fun x _ => ih.map (fun a b h => by simpa using h), ?_⟩
    refine hA.imp ?_
    intro x y hxy t h1 h2
    simp only [List.mem_map] at h1 h2
    obtain ⟨a, _, rfl⟩ := h1
    obtain ⟨b, _, h⟩ := h2
    exact hxy (by simpa using (List.cons.inj h).1.symm)

/-- Each of the pairs fits the condition for its place, and there are as many as conditions. -/
def fits : List (α → Bool) → List α → Bool
  | [], [] => true
  | T :: Ts, x :: xs => T x && fits Ts xs
  | _, _ => false

theorem countP_streams_succ (A : List α) (L : Nat) (f : List α → Bool) :
    (streams A (L + 1)).countP f = (A.map fun x => (streams A L).countP fun t => f (x :: t)).sum := by
  change (A.flatMap fun x => (streams A L).map (x :: ·)).countP f = _
  rw [List.countP_flatMap]
  congr 1
  apply List.map_congr_left
  intro x _
  simp [List.countP_map, Function.comp_def]

theorem sum_by_cases (A : List α) (g T : α → Bool) (F : α → Nat) (u v : Nat)
    (h0 : ∀ x, g x = false → F x = u) (h1 : ∀ x, g x = true → F x = if T x then v else 0) :
    (A.map F).sum = A.countP (fun x => !g x) * u + A.countP (fun x => g x && T x) * v := by
  induction A with
  | nil => simp
  | cons x A ih =>
    simp only [List.map_cons, List.sum_cons, List.countP_cons, ih]
    cases hg : g x with
    | false => rw [h0 x hg]; simp; ring
    | true =>
      rw [h1 x hg]
      cases hT : T x <;> simp ; ring

/-- The number of ways the draws beside the first `k` suitable ones can be, such that the positions of the
suitable ones satisfy `E`: `u` draws are not suitable and `m` are. -/
def ways (u m : Nat) : Nat → Nat → (List Bool → Bool) → Nat
  | 0, 0, E => if E [] then 1 else 0
  | 0, _ + 1, _ => 0
  | L + 1, 0, E => u * ways u m L 0 (fun b => E (false :: b)) + m * ways u m L 0 (fun b => E (true :: b))
  | L + 1, k + 1, E =>
    u * ways u m L (k + 1) (fun b => E (false :: b)) + ways u m L k (fun b => E (true :: b))

theorem count_fits (A : List α) (g : α → Bool) (L : Nat) (Ts : List (α → Bool)) (E : List Bool → Bool) :
    (streams A L).countP (fun d => E (d.map g) && fits Ts ((d.filter g).take Ts.length)) =
      ways (A.countP fun x => !g x) (A.countP g) L Ts.length E *
        (Ts.map fun T => A.countP fun x => g x && T x).prod := by
  induction L generalizing Ts E with
  | zero =>
    cases Ts with
    | nil => cases h : E [] <;> simp [streams, ways, fits, h]
    | cons T Ts => simp [streams, ways, fits]
  | succ L ih =>
    rw [countP_streams_succ]
    cases Ts with
    | nil =>
      have h0 := ih [] (fun b => E (false :: b))
      have h1 := ih [] (fun b => E (true :: b))
      rw [sum_by_cases A g (fun _ => true) _ _ _
        (u := (streams A L).countP fun d => E (false :: d.map g) && fits [] ((d.filter g).take 0))
        (v := (streams A L).countP fun d => E (true :: d.map g) && fits [] ((d.filter g).take 0))]
      · simp only [List.length_nil, List.map_nil, List.prod_nil, Nat.mul_one, Bool.and_true] at h0 h1 ⊢
        rw [h0, h1]
        rfl
      · intro x hx; simp [hx]
      · intro x hx; simp [hx]
    | cons T Ts =>
      have h0 := ih (T :: Ts) (fun b => E (false :: b))
      have h1 := ih Ts (fun b => E (true :: b))
      rw [sum_by_cases A g T _ _ _
        (u := (streams A L).countP fun d =>
          E (false :: d.map g) && fits (T :: Ts) ((d.filter g).take (T :: Ts).length))
        (v := (streams A L).countP fun d =>
          E (true :: d.map g) && fits Ts ((d.filter g).take Ts.length))]
      · rw [h0, h1]
        simp only [List.length_cons, List.map_cons, List.prod_cons, ways]
        ring
      · intro x hx; simp [hx]
      · intro x hx
        cases hT : T x <;> simp [hx, fits, hT]

end Counting

/-- Whether a pair of rows is a suitable one: the second greater than the first. -/
def inc (p : Nat × Nat) : Bool := decide (p.1 < p.2)

/-- The random pairs of rows. -/
def rowPairs (l : List Nat) : List (Nat × Nat) := l.product l

/-- The pairs of separate rows, each once. -/
def suitable (l : List Nat) : List (Nat × Nat) := (l.product l).filter inc

theorem countP_product (l m : List Nat) :
    (l.product m).countP inc = (l.map fun x => m.countP fun y => decide (x < y)).sum := by
  unfold List.product
  rw [List.countP_flatMap]
  congr 1
  apply List.map_congr_left
  intro x _
  rw [Function.comp_apply, List.countP_map]
  rfl

theorem sum_add (l : List Nat) (f g : Nat → Nat) :
    (l.map fun x => f x + g x).sum = (l.map f).sum + (l.map g).sum := by
  induction l with
  | nil => rfl
  | cons x l ih => simp only [List.map_cons, List.sum_cons, ih]; omega

theorem sum_ite (l : List Nat) (p : Nat → Bool) : (l.map fun x => if p x then 1 else 0).sum = l.countP p := by
  induction l with
  | nil => rfl
  | cons x l ih => simp only [List.map_cons, List.sum_cons, List.countP_cons, ih]; omega

theorem countP_above_below (a : Nat) (l : List Nat) (h : a ∉ l) :
    (l.countP fun y => decide (a < y)) + (l.countP fun y => decide (y < a)) = l.length := by
  induction l with
  | nil => rfl
  | cons x l ih =>
    have h1 : a ≠ x := fun e => h (e ▸ List.mem_cons_self)
    have := ih (fun e => h (List.mem_cons_of_mem _ e))
    simp only [List.countP_cons, List.length_cons, decide_eq_true_eq]
    rcases Nat.lt_or_gt_of_ne h1 with h2 | h2
    · rw [if_pos h2, if_neg (by omega)]; omega
    · rw [if_neg (by omega), if_pos h2]; omega

/-- There are `N*(N-1)/2` pairs of separate rows. -/
theorem suitable_length (l : List Nat) (hn : l.Nodup) :
    2 * (suitable l).length = l.length * (l.length - 1) := by
  unfold suitable
  rw [← List.countP_eq_length_filter]
  induction l with
  | nil => rfl
  | cons a l ih =>
    obtain ⟨ha, hl⟩ := List.nodup_cons.1 hn
    have ih := ih hl
    rw [countP_product] at ih ⊢
    have h3 := countP_above_below a l ha
    simp only [List.map_cons, List.sum_cons, List.countP_cons, lt_irrefl, decide_false, Bool.false_eq_true,
      if_false, Nat.add_zero, sum_add, sum_ite, List.length_cons, Nat.add_sub_cancel]
    rcases Nat.eq_zero_or_pos l.length with h0 | h0
    · rw [List.length_eq_zero_iff.1 h0]; rfl
    · obtain ⟨k, hk⟩ := Nat.exists_eq_add_of_lt h0
      have hk : l.length = k + 1 := by omega
      rw [hk, Nat.add_sub_cancel] at ih
      rw [hk] at h3 ⊢
      nlinarith

/-- Whether the sampling ends, from the places of the suitable pairs. -/
def donePattern (size : Nat → Nat) : Nat → Nat → List Bool → Bool
  | 0, _, _ => false
  | fuel + 1, N, b =>
    if b.length < size N then false
    else
      if min N ((b.take (size N)).count true) < N then
        donePattern size fuel (N - min N ((b.take (size N)).count true)) (b.drop (size N))
      else true

theorem keep_length (N : Nat) (d : List (Nat × Nat)) :
    (keepIncreasing N d).length = min N ((d.map inc).count true) := by
  unfold keepIncreasing
  rw [List.length_take, List.count, List.countP_map, ← List.countP_eq_length_filter]
  congr 1
  apply List.countP_congr
  intro x _
  simp [inc]

theorem done_iff (size : Nat → Nat) (fuel N : Nat) (d : List (Nat × Nat)) :
    (drawRounds size fuel N d).isSome = donePattern size fuel N (d.map inc) := by
  induction fuel generalizing N d with
  | zero => rfl
  | succ fuel ih =>
    unfold drawRounds donePattern
    dsimp only
    rw [keep_length, List.length_map, ← List.map_take, ← List.map_drop]
    split_ifs with h1 h2
    · rfl
    · rw [Option.isSome_map, ih]
    · rfl

theorem drawRounds_result (size : Nat → Nat) (fuel N : Nat) (d : List (Nat × Nat))
    (rs : List (List (Nat × Nat))) (h : drawRounds size fuel N d = some rs) :
    pairsSampled N rs = (d.filter inc).take N ∧ N ≤ (d.filter inc).length := by
  induction fuel generalizing N d rs with
  | zero => simp [drawRounds] at h
  | succ fuel ih =>
    have hsplit : d.filter inc = (d.take (size N)).filter inc ++ (d.drop (size N)).filter inc := by
      rw [← List.filter_append, List.take_append_drop]
    have hkeep : keepIncreasing N (d.take (size N)) = ((d.take (size N)).filter inc).take N := rfl
    unfold drawRounds at h
    dsimp only at h
    split_ifs at h with h1 h2
    · obtain ⟨rs', hr, rfl⟩ := Option.map_eq_some_iff.1 h
      obtain ⟨e1, e2⟩ := ih _ _ _ hr
      have hlt : ((d.take (size N)).filter inc).length < N := by
        rw [hkeep, List.length_take] at h2; omega
      have hk : keepIncreasing N (d.take (size N)) = (d.take (size N)).filter inc := by
        rw [hkeep, List.take_of_length_le (by omega)]
      have e3 : pairsSampled N (d.take (size N) :: rs') = keepIncreasing N (d.take (size N)) ++
          pairsSampled (N - (keepIncreasing N (d.take (size N))).length) rs' := by
        change (if _ then _ else _) = _
        rw [if_pos h2]
      rw [e3, e1, hk, hsplit, List.take_append, List.take_of_length_le (by omega : _ ≤ N)]
      refine ⟨rfl, ?_⟩
      rw [hk] at e2
      rw [List.length_append]
      omega
    · cases h
      have e3 : pairsSampled N [d.take (size N)] = keepIncreasing N (d.take (size N)) := by
        change (if _ then _ else _) = _
        rw [if_neg h2]
      have hle : N ≤ ((d.take (size N)).filter inc).length := by
        rw [hkeep, List.length_take] at h2; omega
      rw [e3, hkeep, hsplit, List.take_append_of_le_length hle]
      refine ⟨rfl, ?_⟩
      rw [List.length_append]
      omega

theorem fits_length {α : Type} (Ts : List (α → Bool)) (xs : List α) (h : fits Ts xs = true) :
    xs.length = Ts.length := by
  induction Ts generalizing xs with
  | nil => cases xs <;> simp_all [fits]
  | cons T Ts ih =>
    cases xs with
    | nil => simp [fits] at h
    | cons x xs =>
      simp only [fits, Bool.and_eq_true] at h
      simp [ih xs h.2]

theorem fits_const {α : Type} (T : α → Bool) (N : Nat) (xs : List α) :
    fits (List.replicate N T) xs = (decide (xs.length = N) && xs.all T) := by
  induction N generalizing xs with
  | zero => cases xs <;> simp [fits]
  | succ N ih =>
    cases xs with
    | nil => simp [fits]
    | cons x xs =>
      simp only [List.replicate_succ, fits, ih, List.length_cons, List.all_cons, Nat.add_right_cancel_iff]
      cases T x <;> simp

theorem sampled_eq (size : Nat → Nat) (Ts : List (Nat × Nat → Bool)) (d : List (Nat × Nat)) :
    (sampled size Ts.length d).any (fits Ts) =
      (donePattern size (d.length + 1) Ts.length (d.map inc) && fits Ts ((d.filter inc).take Ts.length)) := by
  unfold sampled
  rw [← done_iff]
  cases h : drawRounds size (d.length + 1) Ts.length d with
  | none => rfl
  | some rs => simp [(drawRounds_result _ _ _ _ _ h).1]

theorem sampled_some (size : Nat → Nat) (N : Nat) (d ps : List (Nat × Nat)) (h : sampled size N d = some ps) :
    ps.length = N ∧ ∀ p ∈ ps, p ∈ d ∧ p.1 < p.2 := by
  unfold sampled at h
  obtain ⟨rs, hr, rfl⟩ := Option.map_eq_some_iff.1 h
  obtain ⟨h1, h2⟩ := drawRounds_result _ _ _ _ _ hr
  rw [h1]
  refine ⟨by rw [List.length_take]; omega, fun p hp => ?_⟩
  have := List.mem_filter.1 (List.mem_of_mem_take hp)
  exact ⟨this.1, by simpa [inc] using this.2⟩

/-- The pairs examined are independent and uniformly distributed over the pairs of separate rows: whatever is
asked of the first, second, ... pair, the sequences of draws that yield such pairs are the same fraction of
those that yield a sample as the choices of such pairs are of all choices. -/
theorem C140_uniform (l : List Nat) (size : Nat → Nat) (L : Nat) (Ts : List (Nat × Nat → Bool)) :
    ((streams (rowPairs l) L).countP fun d => (sampled size Ts.length d).any (fits Ts)) *
        (suitable l).length ^ Ts.length =
      ((streams (rowPairs l) L).countP fun d => (sampled size Ts.length d).isSome) *
        (Ts.map fun T => (suitable l).countP T).prod := by
  have hlen : ∀ d ∈ streams (rowPairs l) L, d.length = L := fun d hd => ((mem_streams _ _ _).1 hd).1
  have hs : ∀ T : Nat × Nat → Bool, (rowPairs l).countP (fun x => inc x && T x) = (suitable l).countP T := by
    intro T
    rw [suitable, List.countP_filter]
    apply List.countP_congr
    intro x _
    simp [and_comm]
  have h1 : ((streams (rowPairs l) L).countP fun d => (sampled size Ts.length d).any (fits Ts)) =
      (streams (rowPairs l) L).countP (fun d => donePattern size (L + 1) Ts.length (d.map inc) &&
        fits Ts ((d.filter inc).take Ts.length)) := by
    apply List.countP_congr
    intro d hd
    rw [sampled_eq, hlen d hd]
  have h2 : ((streams (rowPairs l) L).countP fun d => (sampled size Ts.length d).isSome) =
      (streams (rowPairs l) L).countP (fun d => donePattern size (L + 1) Ts.length (d.map inc) &&
        fits (List.replicate Ts.length fun _ => true)
          ((d.filter inc).take (List.replicate Ts.length fun (_ : Nat × Nat) => true).length)) := by
    apply List.countP_congr
    intro d hd
    have e := sampled_eq size (List.replicate Ts.length fun _ => true) d
    rw [List.length_replicate] at e ⊢
    rw [hlen d hd] at e
    rw [← e]
    cases h : sampled size Ts.length d with
    | none => simp
    | some ps => simp [fits_const, (sampled_some _ _ _ _ h).1]
  rw [h1, h2, count_fits, count_fits]
  simp only [hs, List.length_replicate, List.map_replicate, List.prod_replicate, List.countP_true]
  ring

theorem mem_suitable (l : List Nat) (p : Nat × Nat) : p ∈ suitable l ↔ p.1 ∈ l ∧ p.2 ∈ l ∧ p.1 < p.2 := by
  unfold suitable
  rw [List.mem_filter, List.pair_mem_product (x := p.1) (y := p.2)]
  simp [inc, and_assoc]

theorem suitable_nodup (l : List Nat) (hn : l.Nodup) : (suitable l).Nodup := (hn.product hn).filter _

theorem countP_not (l : List (Nat × Nat)) (hn : l.Nodup) (p : Nat × Nat) (hp : p ∈ l) :
    (l.countP fun q => decide (q ≠ p)) = l.length - 1 := by
  have h := List.length_eq_countP_add_countP (p := fun q => decide (q = p)) (l := l)
  have h1 : (l.countP fun q => decide (q = p)) = 1 := by
    have := List.count_eq_one_of_mem hn hp
    rw [List.count] at this
    rw [← this]
    apply List.countP_congr
    simp
  have h2 : (l.countP fun q => decide ¬ (decide (q = p)) = true) = l.countP fun q => decide (q ≠ p) := by
    apply List.countP_congr
    simp
  omega

/-- A pair of rows escapes the examination in the fraction ((M-1)/M)^Np of all cases, where M = N*(N-1)/2 is
the number of pairs of the N rows and Np the number of pairs to examine: the sequences of draws that yield a
sample, and those of them that yield one without the pair. -/
theorem C140_missed (l : List Nat) (hn : l.Nodup) (size : Nat → Nat) (L Np : Nat) (p : Nat × Nat)
    (hp : p.1 ∈ l ∧ p.2 ∈ l ∧ p.1 < p.2) (M : Nat) (hM : 2 * M = l.length * (l.length - 1)) :
    ((streams (rowPairs l) L).countP fun d => (sampled size Np d).any fun ps => decide (p ∉ ps)) * M ^ Np =
      ((streams (rowPairs l) L).countP fun d => (sampled size Np d).isSome) * (M - 1) ^ Np := by
  have hM' : (suitable l).length = M := by have := suitable_length l hn; omega
  have h := C140_uniform l size L (List.replicate Np fun q => decide (q ≠ p))
  simp only [List.length_replicate, List.map_replicate, List.prod_replicate] at h
  rw [countP_not _ (suitable_nodup l hn) p ((mem_suitable l p).2 hp), hM'] at h
  rw [← h]
  congr 1
  apply List.countP_congr
  intro d _
  cases hd : sampled size Np d with
  | none => simp
  | some ps =>
    simp only [Option.any_some, fits_const, (sampled_some _ _ _ _ hd).1, decide_true, Bool.true_and,
      List.all_eq_true, decide_eq_true_eq]
    constructor
    · rintro h q hq rfl; exact h hq
    · intro h hq; exact h p hq rfl

/-- So it is examined in at most the fraction Np/M of all cases. -/
theorem C140_examined_at_most (l : List Nat) (hn : l.Nodup) (size : Nat → Nat) (L Np : Nat) (p : Nat × Nat)
    (hp : p.1 ∈ l ∧ p.2 ∈ l ∧ p.1 < p.2) (M : Nat) (hM : 2 * M = l.length * (l.length - 1)) :
    ((streams (rowPairs l) L).countP fun d => (sampled size Np d).any fun ps => decide (p ∈ ps)) * M ≤
      ((streams (rowPairs l) L).countP fun d => (sampled size Np d).isSome) * Np := by
  have h := C140_missed l hn size L Np p hp M hM
  have hM0 : 0 < M := by
    have h1 := suitable_length l hn
    have h2 := List.length_pos_of_mem ((mem_suitable l p).2 hp)
    omega
  generalize hall : ((streams (rowPairs l) L).countP fun d => (sampled size Np d).isSome) = all at h ⊢
  generalize hmiss : ((streams (rowPairs l) L).countP fun d =>
    (sampled size Np d).any fun ps => decide (p ∉ ps)) = miss at h
  generalize hhit : ((streams (rowPairs l) L).countP fun d =>
    (sampled size Np d).any fun ps => decide (p ∈ ps)) = hit
  have hsum : hit + miss = all := by
    rw [← hall, ← hmiss, ← hhit]
    induction streams (rowPairs l) L with
    | nil => rfl
    | cons d ds ih =>
      simp only [List.countP_cons]
      cases hd : sampled size Np d with
      | none => simp only [Option.any_none, Option.isSome_none]; simpa using ih
      | some ps =>
        by_cases hm : p ∈ ps
        · simp only [Option.any_some, Option.isSome_some, hm, not_true, decide_true, decide_false, if_true,
            Bool.false_eq_true, if_false]
          omega
        · simp only [Option.any_some, Option.isSome_some, hm, not_false_eq_true, decide_true, decide_false,
            if_true, Bool.false_eq_true, if_false]
          omega
  -- Bernoulli's inequality, in natural numbers
  have bern : ∀ n, M ^ n * M ≤ (M - 1) ^ n * M + n * M ^ n := by
    intro n
    induction n with
    | zero => simp
    | succ n ih =>
      obtain ⟨k, rfl⟩ : ∃ k, M = k + 1 := ⟨M - 1, by omega⟩
      simp only [Nat.add_sub_cancel] at ih ⊢
      have h1 : (k + 1) ^ n * (k + 1) * k ≤ (k ^ n * (k + 1) + n * (k + 1) ^ n) * k :=
        Nat.mul_le_mul_right _ ih
      have h2 : n * (k + 1) ^ n * k ≤ n * (k + 1) ^ n * (k + 1) := Nat.mul_le_mul_left _ (by omega)
      have e1 : (k + 1) ^ (n + 1) * (k + 1) = (k + 1) ^ n * (k + 1) * k + (k + 1) ^ (n + 1) := by ring
      have e2 : (k ^ n * (k + 1) + n * (k + 1) ^ n) * k = k ^ (n + 1) * (k + 1) + n * (k + 1) ^ n * k := by
        ring
      have e3 : (n + 1) * (k + 1) ^ (n + 1) = n * (k + 1) ^ n * (k + 1) + (k + 1) ^ (n + 1) := by ring
      omega
  have hb := Nat.mul_le_mul_left all (bern Np)
  have hpos : 0 < M ^ Np := Nat.pow_pos hM0
  apply Nat.le_of_mul_le_mul_right _ hpos
  have e1 : hit * M * M ^ Np + miss * M ^ Np * M = all * (M ^ Np * M) := by rw [← hsum]; ring
  have e2 : all * ((M - 1) ^ Np * M + Np * M ^ Np) = all * (M - 1) ^ Np * M + all * Np * M ^ Np := by ring
  rw [h] at e1
  omega

/-- In a full history of default size (1500 records) with up to 100 members the closest pair, like any other,
is examined in less than 1.1 % of all cases. -/
theorem C140_full_history (l : List Nat) (hn : l.Nodup) (h : 1400 ≤ l.length) (L : Nat) (p : Nat × Nat)
    (hp : p.1 ∈ l ∧ p.2 ∈ l ∧ p.1 < p.2) :
    ((streams (rowPairs l) L).countP fun d =>
        (sampled (roundSize l.length) 10000 d).any fun ps => decide (p ∈ ps)) * 97 ≤
      (streams (rowPairs l) L).countP fun d => (sampled (roundSize l.length) 10000 d).isSome := by
  have h1 := C140_examined_at_most l hn (roundSize l.length) L 10000 p hp _ (suitable_length l hn)
  have h2 := suitable_length l hn
  have h3 : 1400 * 1399 ≤ l.length * (l.length - 1) := Nat.mul_le_mul h (by omega)
  generalize (suitable l).length = M at h1 h2
  generalize ((streams (rowPairs l) L).countP fun d =>
    (sampled (roundSize l.length) 10000 d).any fun ps => decide (p ∈ ps)) = a at h1 ⊢
  generalize ((streams (rowPairs l) L).countP fun d =>
    (sampled (roundSize l.length) 10000 d).isSome) = b at h1 ⊢
  have h4 : 979300 ≤ M := by omega
  have h5 : a * 979300 ≤ a * M := Nat.mul_le_mul_left _ h4
  omega

/-- With the default limit of 10000 pairs and up to 141 rows, all pairs of separate rows are examined, each
once. -/
theorem C140_all_partial (l : List Nat) (h2 : 2 ≤ l.length) (h : l.length ≤ 141)
    (rounds : List (List (Nat × Nat))) (D : Nat × Nat → PyFloat) :
    call l 10000 rounds D = pickFirst D (suitable l) := by
  have h3 : l.length * (l.length - 1) / 2 < 10000 := by
    have h4 : l.length * (l.length - 1) ≤ 141 * 140 := Nat.mul_le_mul h (by omega)
    omega
  match l, h2 with
  | a :: b :: l, _ =>
    unfold call
    dsimp only
    rw [if_pos h3]
    rfl

/-- With 142 rows or more, only a sample of 10000 pairs is examined; the documentation says that this is so
for more than 142 rows. -/
theorem C140_sampled_from_142 (l : List Nat) (h : 142 ≤ l.length) (rounds : List (List (Nat × Nat)))
    (D : Nat × Nat → PyFloat) :
    call l 10000 rounds D = pickFirst D (pairsSampled 10000 rounds) := by
  have h3 : ¬ l.length * (l.length - 1) / 2 < 10000 := by
    have h4 : 142 * 141 ≤ l.length * (l.length - 1) := Nat.mul_le_mul h (by omega)
    omega
  match l, h with
  | a :: b :: l, _ =>
    unfold call
    dsimp only
    rw [if_neg h3]

/-- With a limit of 1000 pairs the documented number is right: all pairs of up to 45 rows, a sample from 46
on. -/
theorem C140_limit_1000 (l : List Nat) (h2 : 2 ≤ l.length) (rounds : List (List (Nat × Nat)))
    (D : Nat × Nat → PyFloat) :
    call l 1000 rounds D = pickFirst D (if 45 < l.length then pairsSampled 1000 rounds else suitable l) := by
  match l, h2 with
  | a :: b :: l, _ =>
    unfold call
    dsimp only
    by_cases h : 45 < (a :: b :: l).length
    · rw [if_pos h, if_neg]
      have h4 : 46 * 45 ≤ (a :: b :: l).length * ((a :: b :: l).length - 1) := Nat.mul_le_mul h (by omega)
      omega
    · rw [if_neg h, if_pos]
      · rfl
      · have h4 : (a :: b :: l).length * ((a :: b :: l).length - 1) ≤ 45 * 44 :=
          Nat.mul_le_mul (by omega) (by omega)
        omega

section Sums

variable {α : Type}

theorem sum_map_const (A : List α) (c : Nat) : (A.map fun _ => c).sum = A.length * c := by
  induction A with
  | nil => simp
  | cons x A ih => simp only [List.map_cons, List.sum_cons, ih, List.length_cons]; ring

theorem sum_streams_succ (A : List α) (L : Nat) (f : List α → Nat) :
    ((streams A (L + 1)).map f).sum = (A.map fun x => ((streams A L).map fun t => f (x :: t)).sum).sum := by
  change ((A.flatMap fun x => (streams A L).map (x :: ·)).map f).sum = _
  have h : ∀ B : List α, ((B.flatMap fun x => (streams A L).map (x :: ·)).map f).sum =
      (B.map fun x => ((streams A L).map fun t => f (x :: t)).sum).sum := by
    intro B
    induction B with
    | nil => rfl
    | cons x B ih =>
      rw [List.flatMap_cons, List.map_append, List.sum_append, ih, List.map_cons, List.sum_cons, List.map_map]
      rfl
  exact h A

theorem sum_map_add (B : List α) (f g : α → Nat) :
    (B.map fun x => f x + g x).sum = (B.map f).sum + (B.map g).sum := by
  induction B with
  | nil => rfl
  | cons x B ih => simp only [List.map_cons, List.sum_cons, ih]; omega

theorem sum_map_mul (B : List α) (c : Nat) (g : α → Nat) :
    (B.map fun x => c * g x).sum = c * (B.map g).sum := by
  induction B with
  | nil => rfl
  | cons x B ih => simp only [List.map_cons, List.sum_cons, ih]; ring

/-- The total number of suitable draws in all sequences of `L` draws. -/
theorem total_suitable (A : List α) (g : α → Bool) (L : Nat) :
    ((streams A L).map fun d => d.countP g).sum * A.length = L * A.length ^ L * A.countP g := by
  induction L with
  | zero => simp [streams]
  | succ L ih =>
    have h : ∀ B : List α, (B.map fun x => ((streams A L).map fun t => (x :: t).countP g).sum).sum =
        B.countP g * A.length ^ L + B.length * ((streams A L).map fun d => d.countP g).sum := by
      intro B
      induction B with
      | nil => simp
      | cons x B ihB =>
        simp only [List.map_cons, List.sum_cons, ihB]
        have : ((streams A L).map fun t => (x :: t).countP g).sum =
            ((streams A L).map fun d => d.countP g).sum + A.length ^ L * (if g x then 1 else 0) := by
          simp only [List.countP_cons, sum_map_add, sum_map_const, streams_length]
        rw [this, List.countP_cons, List.length_cons]
        ring
    rw [sum_streams_succ, h A, Nat.add_mul, Nat.mul_assoc A.length, ih]
    ring

theorem sum_weights (A : List α) (g : α → Bool) (t s : Nat) :
    ((streams A (t + s)).map fun d => 2 ^ ((d.take t).countP fun x => !g x)).sum =
      (2 * (A.countP fun x => !g x) + A.countP g) ^ t * A.length ^ s := by
  induction t with
  | zero => simp [streams_length]
  | succ t ih =>
    rw [show t + 1 + s = (t + s) + 1 by omega, sum_streams_succ]
    have h : ∀ B : List α, (B.map fun x => ((streams A (t + s)).map fun d =>
          2 ^ (((x :: d).take (t + 1)).countP fun x => !g x)).sum).sum =
        (2 * (B.countP fun x => !g x) + B.countP g) *
          ((streams A (t + s)).map fun d => 2 ^ ((d.take t).countP fun x => !g x)).sum := by
      intro B
      induction B with
      | nil => simp
      | cons x B ihB =>
        rw [List.map_cons, List.sum_cons, ihB]
        have : ((streams A (t + s)).map fun d =>
            2 ^ (((x :: d).take (t + 1)).countP fun x => !g x)).sum = (if g x then 1 else 2) *
            ((streams A (t + s)).map fun d => 2 ^ ((d.take t).countP fun x => !g x)).sum := by
          rw [← sum_map_mul]
          congr 1
          apply List.map_congr_left
          intro d _
          rw [List.take_succ_cons, List.countP_cons]
          cases g x <;> simp [pow_succ, Nat.mul_comm]
        rw [this, List.countP_cons, List.countP_cons]
        cases g x <;> simp <;> ring
    rw [h A, ih]
    ring

end Sums

/-- The mean number of suitable pairs in a round is at least the number of pairs missing, as long as ten or
more are: summed over all sequences of draws. -/
theorem C140_round_mean (l : List Nat) (hn : l.Nodup) (h2 : 2 ≤ l.length) (N : Nat) (hN : 10 ≤ N) :
    N * (streams (rowPairs l) (roundSize l.length N)).length ≤
      ((streams (rowPairs l) (roundSize l.length N)).map fun d => d.countP inc).sum := by
  have hm : 2 * (rowPairs l).countP inc = l.length * (l.length - 1) := by
    rw [← suitable_length l hn, suitable, List.countP_eq_length_filter]; rfl
  have hA : (rowPairs l).length = l.length * l.length := List.length_product l l
  have hpos : 0 < l.length * l.length := Nat.mul_pos (by omega) (by omega)
  have h := total_suitable (rowPairs l) inc (roundSize l.length N)
  rw [streams_length]
  rw [hA] at h ⊢
  apply Nat.le_of_mul_le_mul_right _ hpos
  rw [h]
  have key : N * (l.length * l.length) ≤ roundSize l.length N * (rowPairs l).countP inc := by
    unfold roundSize
    obtain ⟨k, hk⟩ : ∃ k, l.length = k + 2 := ⟨l.length - 2, by omega⟩
    rw [hk] at hm ⊢
    simp only [show k + 2 - 1 = k + 1 by omega] at hm ⊢
    have hd := Nat.div_add_mod (21 * (k + 2) * N) (10 * (k + 1))
    have hr := Nat.mod_lt (21 * (k + 2) * N) (show 0 < 10 * (k + 1) by omega)
    generalize 21 * (k + 2) * N / (10 * (k + 1)) = q at hd ⊢
    generalize 21 * (k + 2) * N % (10 * (k + 1)) = r at hd hr
    generalize (rowPairs l).countP inc = m at hm ⊢
    have e1 : q * m * 20 = (k + 2) * (10 * (k + 1) * q) := by
      have : q * m * 20 = 10 * q * (2 * m) := by ring
      rw [this, hm]; ring
    have e2 : 10 * (k + 1) * q + 10 * (k + 1) ≥ 21 * (k + 2) * N := by omega
    have e3 := Nat.mul_le_mul_left (k + 2) e2
    have e4 : (k + 2) * (10 * (k + 1)) ≤ (k + 2) * ((k + 2) * N) :=
      Nat.mul_le_mul_left _ (by nlinarith)
    nlinarith
  have := Nat.mul_le_mul_right ((l.length * l.length) ^ roundSize l.length N) key
  nlinarith

theorem done_of_enough (size : Nat → Nat) (s : Nat) (fuel N : Nat) (b : List Bool)
    (hs : ∀ k ≤ N, size k ≤ s) (h1 : ∀ k ≤ N, 1 ≤ k → 1 ≤ size k) (hN : 1 ≤ N) (hf : b.length < fuel)
    (hc : N ≤ (b.take (b.length - s)).count true) : donePattern size fuel N b = true := by
  induction fuel generalizing N b with
  | zero => omega
  | succ fuel ih =>
    have hsz := hs N le_rfl
    have hp := h1 N le_rfl hN
    have hlen : s < b.length := by
      by_contra h
      rw [Nat.sub_eq_zero_of_le (by omega)] at hc
      simp at hc; omega
    unfold donePattern
    rw [if_neg (by omega)]
    split_ifs with h
    · have hlt : (b.take (size N)).count true < N := by omega
      rw [Nat.min_eq_right (by omega)]
      have hle : size N ≤ b.length - s := by
        by_contra hgt
        have hsub : ((b.take (b.length - s)).count true) ≤ (b.take (size N)).count true :=
          (List.take_prefix_take_left (by omega)).sublist.count_le true
        omega
      have hsplit : b.take (b.length - s) =
          b.take (size N) ++ (b.drop (size N)).take (b.length - s - size N) := by
        rw [← List.take_add]; congr 1; omega
      rw [hsplit, List.count_append] at hc
      apply ih
      · intro k hk; exact hs k (by omega)
      · intro k hk; exact h1 k (by omega)
      · omega
      · rw [List.length_drop]; omega
      · rw [List.length_drop, show b.length - size N - s = b.length - s - size N by omega]
        omega
    · rfl

/-- The sampling ends: with `s` pairs drawn in a round at most, the fraction of the sequences of `t + s` draws
that yield no sample yet is at most `2^Np (7/8)^t`. -/
theorem C140_ends (l : List Nat) (hn : l.Nodup) (h2 : 2 ≤ l.length) (size : Nat → Nat) (s Np : Nat)
    (hNp : 1 ≤ Np) (hs : ∀ k ≤ Np, size k ≤ s) (h1 : ∀ k ≤ Np, 1 ≤ k → 1 ≤ size k) (t : Nat) :
    ((streams (rowPairs l) (t + s)).countP fun d => (sampled size Np d).isNone) * 8 ^ t ≤
      2 ^ Np * 7 ^ t * (streams (rowPairs l) (t + s)).length := by
  have hm : 2 * (rowPairs l).countP inc = l.length * (l.length - 1) := by
    rw [← suitable_length l hn, suitable, List.countP_eq_length_filter]; rfl
  have hA : (rowPairs l).length = l.length * l.length := List.length_product l l
  have hsum := List.length_eq_countP_add_countP (p := inc) (l := rowPairs l)
  have hnot : ((rowPairs l).countP fun x => decide ¬ inc x = true) = (rowPairs l).countP fun x => !inc x := by
    apply List.countP_congr; intro x _; simp
  have hw := sum_weights (rowPairs l) inc t s
  -- the sequences without a sample have a large weight
  have hfail : ∀ B : List (List (Nat × Nat)), (∀ d ∈ B, d.length = t + s) →
      (B.countP fun d => (sampled size Np d).isNone) * 2 ^ t ≤
        2 ^ Np * (B.map fun d => 2 ^ ((d.take t).countP fun x => !inc x)).sum := by
    intro B hB
    induction B with
    | nil => simp
    | cons d B ihB =>
      have ih := ihB (fun d hd => hB d (List.mem_cons_of_mem _ hd))
      have hd := hB d List.mem_cons_self
      rw [List.countP_cons, List.map_cons, List.sum_cons]
      split_ifs with hnone
      · have hcnt : (d.take t).countP inc < Np := by
          by_contra hge
          have hdone := done_of_enough size s (d.length + 1) Np (d.map inc) hs h1 hNp (by simp) (by
            rw [List.length_map, hd, Nat.add_sub_cancel, ← List.map_take, List.count, List.countP_map]
            have : ((d.take t).countP ((fun x => x == true) ∘ inc)) = (d.take t).countP inc := by
              apply List.countP_congr; intro x _; simp
            rw [this]; omega)
          rw [← done_iff] at hdone
          unfold sampled at hnone
          rw [Option.isNone_map] at hnone
          rw [← Option.not_isSome, hdone] at hnone
          simp at hnone
        have hl := List.length_eq_countP_add_countP (p := inc) (l := d.take t)
        have hnot' : ((d.take t).countP fun x => decide ¬ inc x = true) = (d.take t).countP fun x => !inc x := by
          apply List.countP_congr; intro x _; simp
        rw [List.length_take, hd, hnot'] at hl
        have hpow : 2 ^ t ≤ 2 ^ Np * 2 ^ ((d.take t).countP fun x => !inc x) := by
          rw [← pow_add]
          exact Nat.pow_le_pow_right (by omega) (by omega)
        rw [Nat.add_mul, Nat.mul_add]
        omega
      · rw [Nat.add_zero, Nat.mul_add]
        exact ih.trans (Nat.le_add_left _ _)
  have hF := hfail (streams (rowPairs l) (t + s)) (fun d hd => ((mem_streams _ _ _).1 hd).1)
  rw [hw] at hF
  rw [streams_length]
  rw [hA, hnot] at hsum
  generalize hu : ((rowPairs l).countP fun x => !inc x) = u at hF hsum
  generalize (rowPairs l).countP inc = m at hF hm hsum
  rw [hA] at hF ⊢
  have h4 : 4 * (2 * u + m) ≤ 7 * (l.length * l.length) := by
    obtain ⟨k, hk⟩ : ∃ k, l.length = k + 2 := ⟨l.length - 2, by omega⟩
    rw [hk] at hm hsum ⊢
    simp only [show k + 2 - 1 = k + 1 by omega] at hm
    nlinarith
  have h5 := Nat.pow_le_pow_left h4 t
  rw [mul_pow, mul_pow] at h5
  generalize ((streams (rowPairs l) (t + s)).countP fun d => (sampled size Np d).isNone) = F at hF ⊢
  have e8 : (8 : Nat) ^ t = 2 ^ t * 4 ^ t := by rw [← mul_pow]; norm_num
  rw [e8, pow_add]
  calc F * (2 ^ t * 4 ^ t) = F * 2 ^ t * 4 ^ t := by ring
    _ ≤ 2 ^ Np * ((2 * u + m) ^ t * (l.length * l.length) ^ s) * 4 ^ t := Nat.mul_le_mul_right _ hF
    _ = 2 ^ Np * (4 ^ t * (2 * u + m) ^ t) * (l.length * l.length) ^ s := by ring
    _ ≤ 2 ^ Np * (7 ^ t * (l.length * l.length) ^ t) * (l.length * l.length) ^ s :=
      Nat.mul_le_mul_right _ (Nat.mul_le_mul_left _ h5)
    _ = 2 ^ Np * 7 ^ t * ((l.length * l.length) ^ t * (l.length * l.length) ^ s) := by ring

namespace Demo

/-- Three rows, six draws in the first round for two pairs, and a sample from seven draws. -/
example : roundSize 3 2 = 6 ∧
    sampled (roundSize 3) 2 [(4, 4), (4, 7), (7, 4), (9, 7), (9, 9), (4, 9), (7, 7)] =
      some [(4, 7), (4, 9)] := by decide +kernel

/-- Here a second round is needed. -/
example : roundSize 3 1 = 3 ∧
    sampled (roundSize 3) 2 [(4, 4), (4, 7), (7, 4), (9, 7), (9, 9), (9, 4), (7, 7), (7, 9), (4, 9)] =
      some [(4, 7), (7, 9)] := by decide +kernel

/-- Two rows: of the 16 sequences of two draws, with two pairs drawn per round, seven yield a pair. -/
example : ((streams (rowPairs [0, 1]) 2).countP fun d => (sampled (fun _ => 2) 1 d).isSome) = 7 ∧
    (streams (rowPairs [0, 1]) 2).length = 16 := by decide +kernel

example : suitable [4, 7, 9] = [(4, 7), (4, 9), (7, 9)] ∧ ([4, 7, 9] : List Nat).Nodup ∧
    2 * 3 = ([4, 7, 9] : List Nat).length * (([4, 7, 9] : List Nat).length - 1) := by decide +kernel

/-- Three rows and a sample of one: sequences of three draws. -/
example : ((streams (rowPairs [4, 7, 9]) 3).countP fun d =>
      (sampled (fun _ => 3) 1 d).any fun ps => decide ((4, 7) ∉ ps)) * 3 ^ 1 =
    ((streams (rowPairs [4, 7, 9]) 3).countP fun d => (sampled (fun _ => 3) 1 d).isSome) * 2 ^ 1 := by
  decide +kernel

example : (∀ k ≤ 2, roundSize 3 k ≤ 6) ∧ ∀ k ≤ 2, 1 ≤ k → 1 ≤ roundSize 3 k := by decide

example : (List.range 142).length = 142 ∧ (List.range 1400).Nodup ∧ 1400 ≤ (List.range 1400).length :=
  ⟨by simp, List.nodup_range, by simp⟩

example := C140_missed [4, 7, 9] (by decide) (fun _ => 3) 3 1 (4, 7) (by decide) 3 rfl

example := C140_examined_at_most [4, 7, 9] (by decide) (fun _ => 3) 3 1 (4, 7) (by decide) 3 rfl

example := C140_full_history (List.range 1400) List.nodup_range (by simp) 30000 (17, 1399) (by simp)

example := C140_all_partial [4, 7, 9] (by decide) (by decide) [] (fun p => .fin p.2)

example := C140_sampled_from_142 (List.range 142) (by simp) [[(3, 5)]] (fun p => .fin p.2)

example := C140_limit_1000 [4, 7, 9] (by decide) [] (fun p => .fin p.2)

example := C140_round_mean [4, 7, 9] (by decide) (by decide) 10 (by decide)

end Demo

end PairSampling
end Ade
