import Verif.Lemmas.Cases
import Verif.Model.HistoryLock

/-!
# C75: requests to a history take effect one after the other, in the order of the calls

The specification is the sequential history of `Model/History.lean`: `History.run` of the requested operations.
-/

set_option autoImplicit false

namespace Ade
namespace HistoryLock
open History

/-! ## Specification -/

/-- The requests made in a sequence of events, in order. -/
def requests : List Ev → List Req
  | [] => []
  | .request r :: es => r :: requests es
  | _ :: es => requests es

/-- The operations among requests. -/
def ops : List Req → List Op
  | [] => []
  | .op o :: rs => o :: ops rs
  | .sync :: rs => ops rs

/-- The history after the requests have been carried out one after the other. -/
def after (f4 : PyFloat → PyFloat) (h : Hist) (rs : List Req) : Hist := History.run f4 h (ops rs)

/-! ## Lemmas -/

theorem requests_append (es : List Ev) (e : Ev) : requests (es ++ [e]) = requests es ++ requests [e] := by
  induction es with
  | nil => simp [requests]
  | cons a es ih => cases a <;> simp [requests, ih]

theorem ops_append (a b : List Req) : ops (a ++ b) = ops a ++ ops b := by
  induction a with
  | nil => rfl
  | cons r a ih => cases r <;> simp [ops, ih]

theorem after_append (f4 : PyFloat → PyFloat) (h : Hist) (a b : List Req) :
    after f4 h (a ++ b) = after f4 (after f4 h a) b := by
  simp [after, History.run, ops_append]

/-- A request that does not ask for the lock changes nothing. -/
theorem after_skip (f4 : PyFloat → PyFloat) (h : Hist) (r : Req) (hr : needsLock r = false) :
    after f4 h [r] = h := by
  cases r with
  | sync => rfl
  | op o =>
    cases o with
    | add i nip ch =>
      simp only [needsLock] at hr
      simp [after, ops, History.run, History.step, History.add, hr]
    | _ => simp [needsLock] at hr

theorem after_filter (f4 : PyFloat → PyFloat) (h : Hist) (rs : List Req) :
    after f4 h (rs.filter needsLock) = after f4 h rs := by
  induction rs generalizing h with
  | nil => rfl
  | cons r rs ih =>
    have h2 : after f4 h (r :: rs) = after f4 (after f4 h [r]) rs := after_append f4 h [r] rs
    cases hr : needsLock r with
    | true =>
      rw [List.filter_cons_of_pos hr, h2, ← ih]
      exact after_append f4 h [r] _
    | false =>
      rw [List.filter_cons_of_neg (by simp [hr]), h2, after_skip f4 h r hr, ih]

/-- While the lock is left acquired, nothing changes. -/
theorem step_held (f4 : PyFloat → PyFloat) (h : Hist) (hh : h.held = true) (o : Op) :
    History.step f4 h o = h := by
  cases o with
  | add i nip ch =>
    simp only [History.step, History.add, hh, if_true]
    split <;> rfl
  | _ => simp [History.step, History.notInPop, History.notInPopRow, History.purgePop, History.clear, hh]

theorem after_held (f4 : PyFloat → PyFloat) (h : Hist) (hh : h.held = true) (rs : List Req) :
    after f4 h rs = h := by
  induction rs with
  | nil => rfl
  | cons r rs ih =>
    cases r with
    | sync => simpa [after, ops] using ih
    | op o =>
      simp only [after, ops, History.run, List.foldl_cons, step_held f4 h hh]
      exact ih

/-- The requests that ask for the lock, with their numbers. -/
def locks (k : ℕ) : List Req → List (ℕ × Req)
  | [] => []
  | r :: rs => if needsLock r then (k, r) :: locks (k + 1) rs else locks (k + 1) rs

theorem locks_append (k : ℕ) (rs : List Req) (r : Req) :
    locks k (rs ++ [r]) = locks k rs ++ if needsLock r then [(k + rs.length, r)] else [] := by
  induction rs generalizing k with
  | nil => simp [locks]
  | cons a rs ih =>
    simp only [List.cons_append, locks, ih, List.length_cons]
    split <;> simp [Nat.add_assoc, Nat.add_comm 1]

theorem locks_split (k : ℕ) (rs : List Req) (a : List (ℕ × Req)) (m : ℕ) (r : Req) (b : List (ℕ × Req))
    (h : locks k rs = a ++ (m, r) :: b) :
    k ≤ m ∧ (rs.take (m - k)).filter needsLock = a.map Prod.snd ∧ rs[m - k]? = some r := by
  induction rs generalizing k a with
  | nil => simp [locks] at h
  | cons x rs ih =>
    simp only [locks] at h
    cases hx : needsLock x with
    | true =>
      rw [hx, if_pos rfl] at h
      cases a with
      | nil =>
        simp only [List.nil_append, List.cons.injEq, Prod.mk.injEq] at h
        obtain ⟨⟨rfl, rfl⟩, _⟩ := h
        simp
      | cons y a =>
        simp only [List.cons_append, List.cons.injEq] at h
        obtain ⟨rfl, h⟩ := h
        obtain ⟨h1, h2, h3⟩ := ih (k + 1) a h
        have e : m - k = (m - (k + 1)) + 1 := by omega
        rw [e]
        refine ⟨by omega, ?_, by simpa using h3⟩
        rw [List.take_succ_cons, List.filter_cons_of_pos hx, h2]
        rfl
    | false =>
      rw [hx] at h
      simp only [Bool.false_eq_true, if_false] at h
      obtain ⟨h1, h2, h3⟩ := ih (k + 1) a h
      have e : m - k = (m - (k + 1)) + 1 := by omega
      rw [e]
      refine ⟨by omega, ?_, by simpa using h3⟩
      rw [List.take_succ_cons, List.filter_cons_of_neg (by simp [hx]), h2]

theorem locks_snd (k : ℕ) (rs : List Req) : (locks k rs).map Prod.snd = rs.filter needsLock := by
  induction rs generalizing k with
  | nil => rfl
  | cons r rs ih =>
    simp only [locks]
    cases hr : needsLock r with
    | true => rw [if_pos rfl, List.map_cons, ih, List.filter_cons_of_pos hr]
    | false =>
      simp only [Bool.false_eq_true, if_false]
      rw [ih, List.filter_cons_of_neg (by simp [hr])]

/-! ## What a Deferred that has fired tells -/

/-- The Deferred of request `m` of `rs` fired with result `res` when the history was `h`, as it should: all
requests before it have taken effect, and it itself, and nothing else. -/
def Fired (f4 : PyFloat → PyFloat) (h0 : Hist) (rs : List Req) (m : ℕ) (res : Option Res) (h : Hist) : Prop :=
  match rs[m]? with
  | none => False
  | some .sync => res = none ∧ h = after f4 h0 (rs.take m)
  | some (.op (.add i nip ch)) =>
    if i.sse.isFinite then
      h = (History.add f4 (after f4 h0 (rs.take m)) i nip ch).1 ∧
        res = some (History.add f4 (after f4 h0 (rs.take m)) i nip ch).2
    else res = some .skipped
  | some (.op o) => res = none ∧ h = History.step f4 (after f4 h0 (rs.take m)) o

theorem Fired.mono {f4 : PyFloat → PyFloat} {h0 : Hist} {rs : List Req} {m : ℕ} {res : Option Res} {h : Hist}
    (hf : Fired f4 h0 rs m res h) (r : Req) : Fired f4 h0 (rs ++ [r]) m res h := by
  unfold Fired at hf ⊢
  cases hm : rs[m]? with
  | none => rw [hm] at hf; exact absurd hf (by simp)
  | some x =>
    have hlt : m < rs.length := (List.getElem?_eq_some_iff.1 hm).1
    rw [List.getElem?_append_left hlt, List.take_append_of_le_length hlt.le]
    exact hf

/-! ## Invariant -/

/-- The part of the requests that ask for the lock which is under way. -/
def underWay (s : LSt) : List (ℕ × Req) :=
  match s.current with
  | none => []
  | some w => [(w.id, .op (.add w.i w.neverInPop w.choose))]

/-- The invariant, with the requests that have been carried out. -/
structure Inv (f4 : PyFloat → PyFloat) (h0 : Hist) (rs : List Req) (s : LSt) : Prop where
  next : s.next = rs.length
  split : ∃ a, locks 0 rs = a ++ underWay s ++ s.pending ∧ s.hist = after f4 h0 (a.map Prod.snd)
  waits : ∀ w, s.current = some w → s.hist.held = false ∧ s.hist.K.length ≠ 0 ∧
    ¬ s.hist.K.length < s.hist.nMax ∧ w.N = s.hist.K.length ∧ w.act = s.hist.cpf.K ∧ w.i.sse.isFinite = true
  fired : ∀ p ∈ s.fired, Fired f4 h0 rs p.1 p.2.1 p.2.2
  all : ∀ m < s.next, (∃ p ∈ s.fired, p.1 = m) ∨ (∃ p ∈ underWay s ++ s.pending, p.1 = m)

theorem inv_start (f4 : PyFloat → PyFloat) (h0 : Hist) : Inv f4 h0 [] (start h0) := by
  refine ⟨rfl, ⟨[], rfl, rfl⟩, ?_, ?_, ?_⟩ <;> simp [start]

theorem inv_request {f4 : PyFloat → PyFloat} {h0 : Hist} {rs : List Req} {s : LSt} (hs : Inv f4 h0 rs s)
    (r : Req) : Inv f4 h0 (rs ++ [r]) (request s r) := by
  obtain ⟨a, ha, hh⟩ := hs.split
  unfold request
  cases hr : needsLock r with
  | true =>
    simp only [if_true]
    refine ⟨by simp [hs.next], ⟨a, ?_, hh⟩, hs.waits, fun p hp => (hs.fired p hp).mono r, ?_⟩
    · rw [locks_append, ha, hr, hs.next]
      simp [underWay]
    · intro m hm
      by_cases hm' : m < s.next
      · rcases hs.all m hm' with h | ⟨p, hp, e⟩
        · exact Or.inl h
        · refine Or.inr ⟨p, ?_, e⟩
          simp only [underWay, List.mem_append] at hp ⊢
          tauto
      · refine Or.inr ⟨(s.next, r), ?_, ?_⟩
        · simp
        · have : m < s.next + 1 := hm
          simp only; omega
  | false =>
    simp only [Bool.false_eq_true, if_false]
    refine ⟨by simp [hs.next], ⟨a, ?_, hh⟩, hs.waits, ?_, ?_⟩
    · rw [locks_append, ha, hr]
      simp [underWay]
    · intro p hp
      simp only [List.mem_append, List.mem_singleton] at hp
      rcases hp with hp | rfl
      · exact (hs.fired p hp).mono r
      · unfold Fired
        have : (rs ++ [r])[s.next]? = some r := by rw [hs.next]; simp
        simp only [this]
        cases r with
        | sync => simp [needsLock] at hr
        | op o =>
          cases o with
          | add i nip ch =>
            simp only [needsLock] at hr
            simp [hr]
          | _ => simp [needsLock] at hr
    · intro m hm
      by_cases hm' : m < s.next
      · rcases hs.all m hm' with ⟨p, hp, e⟩ | h
        · exact Or.inl ⟨p, by simp [hp], e⟩
        · exact Or.inr h
      · refine Or.inl ⟨(s.next, some .skipped, s.hist), by simp, ?_⟩
        have : m < s.next + 1 := hm
        simp only; omega

/-- The end of the request that has the lock. -/
theorem inv_fire {f4 : PyFloat → PyFloat} {h0 : Hist} {rs : List Req} {s : LSt} {a : List (ℕ × Req)} {id : ℕ}
    {r : Req} {res : Option Res} {h : Hist} (hn : s.next = rs.length)
    (ha : locks 0 rs = a ++ (id, r) :: s.pending) (hf : Fired f4 h0 rs id res h)
    (hh : h = after f4 (after f4 h0 (a.map Prod.snd)) [r])
    (hfired : ∀ p ∈ s.fired, Fired f4 h0 rs p.1 p.2.1 p.2.2)
    (hall : ∀ m < s.next, (∃ p ∈ s.fired, p.1 = m) ∨ m = id ∨ (∃ p ∈ s.pending, p.1 = m)) :
    Inv f4 h0 rs (fire s id res h) := by
  refine ⟨hn, ⟨a ++ [(id, r)], ?_, ?_⟩, by simp [fire], ?_, ?_⟩
  · rw [ha]; simp [fire, underWay]
  · simp only [fire, List.map_append, after_append, hh]; rfl
  · intro p hp
    simp only [fire, List.mem_append, List.mem_singleton] at hp
    rcases hp with hp | rfl
    · exact hfired p hp
    · exact hf
  · intro m hm
    rcases hall m hm with ⟨p, hp, e⟩ | rfl | ⟨p, hp, e⟩
    · exact Or.inl ⟨p, by simp [fire, hp], e⟩
    · exact Or.inl ⟨(m, res, h), by simp [fire], rfl⟩
    · exact Or.inr ⟨p, by simp [fire, underWay, hp], e⟩

theorem inv_step {f4 : PyFloat → PyFloat} {h0 : Hist} {rs : List Req} {s s' : LSt} (e : Ev)
    (hs : Inv f4 h0 rs s) (hst : step f4 s e = some s') : Inv f4 h0 (rs ++ requests [e]) s' := by
  cases e with
  | request r =>
    simp only [step, Option.some.injEq] at hst
    subst hst
    exact inv_request hs r
  | begin =>
    simp only [requests, List.append_nil]
    simp only [step] at hst
    cases hheld : s.hist.held with
    | true => simp [hheld] at hst
    | false =>
      simp only [hheld, Bool.false_eq_true, if_false] at hst
      cases hc : s.current with
      | some w => simp [hc] at hst
      | none =>
        cases hp : s.pending with
        | nil => simp [hc, hp] at hst
        | cons q rest =>
          obtain ⟨id, r⟩ := q
          simp only [hc, hp, Option.some.injEq] at hst
          obtain ⟨a, ha, hh⟩ := hs.split
          have hu : underWay s = [] := by simp [underWay, hc]
          rw [hu, hp, List.append_nil] at ha
          obtain ⟨_, h2, h3⟩ := locks_split 0 rs a id r rest ha
          simp only [Nat.sub_zero] at h2 h3
          have hbefore : after f4 h0 (rs.take id) = s.hist := by
            rw [← after_filter, h2, hh]
          have hall : ∀ m < s.next, (∃ p ∈ s.fired, p.1 = m) ∨ m = id ∨ (∃ p ∈ rest, p.1 = m) := by
            intro m hm
            rcases hs.all m hm with h | ⟨p, hp', e⟩
            · exact Or.inl h
            · rw [hu, hp, List.nil_append, List.mem_cons] at hp'
              rcases hp' with rfl | hp'
              · exact Or.inr (Or.inl e.symm)
              · exact Or.inr (Or.inr ⟨p, hp', e⟩)
          -- a request that ends without waiting
          have key : ∀ res h, Fired f4 h0 rs id res h → h = after f4 s.hist [r] →
              Inv f4 h0 rs (fire { s with pending := rest, current := none } id res h) := by
            intro res h h4 h5
            refine inv_fire (s := { s with pending := rest, current := none }) (a := a) (r := r) hs.next
              ha h4 ?_ hs.fired hall
            rw [h5, hh]
          cases r with
          | sync =>
            simp only [run1] at hst
            rw [← hst]
            refine key _ _ ?_ rfl
            unfold Fired
            rw [h3]
            exact ⟨rfl, hbefore.symm⟩
          | op o =>
            cases o with
            | add i nip ch =>
              simp only [run1] at hst
              have hfin : i.sse.isFinite = true := by
                have hm : (.op (.add i nip ch) : Req) ∈ (locks 0 rs).map Prod.snd := by
                  rw [ha]; simp
                rw [locks_snd, List.mem_filter] at hm
                simpa [needsLock] using hm.2
              have hF : ∀ x : Hist × Res, History.add f4 s.hist i nip ch = x →
                  Fired f4 h0 rs id (some x.2) x.1 := by
                intro x hx
                unfold Fired
                rw [h3]
                simp only [hfin, if_true, hbefore, hx, and_self]
              have hA : ∀ x : Hist × Res, History.add f4 s.hist i nip ch = x →
                  x.1 = after f4 s.hist [.op (.add i nip ch)] := by
                intro x hx
                simp [after, ops, History.run, History.step, hx]
              by_cases hN : s.hist.K.length = 0
              · rw [if_pos hN] at hst
                rw [← hst]
                have hx : History.add f4 s.hist i nip ch = finishAdd f4 s.hist i nip 0 0 := by
                  simp [History.add, hfin, hheld, hN]
                exact key _ _ (hF _ hx) (hA _ hx)
              · rw [if_neg hN] at hst
                by_cases hM : s.hist.K.length < s.hist.nMax
                · rw [if_pos hM] at hst
                  rw [← hst]
                  have hx : History.add f4 s.hist i nip ch =
                      placeAndFinish f4 s.hist i nip s.hist.K.length := by
                    simp [History.add, hfin, hheld, hN, hM]
                  exact key _ _ (hF _ hx) (hA _ hx)
                · rw [if_neg hM] at hst
                  rw [← hst]
                  refine ⟨hs.next, ⟨a, ?_, hh⟩, ?_, hs.fired, ?_⟩
                  · rw [ha]; simp [underWay]
                  · intro w hw
                    simp only [Option.some.injEq] at hw
                    subst hw
                    exact ⟨hheld, hN, hM, rfl, rfl, hfin⟩
                  · intro m hm
                    rcases hall m hm with h | rfl | ⟨p, hp', e⟩
                    · exact Or.inl h
                    · exact Or.inr ⟨(m, .op (.add i nip ch)), by simp [underWay], rfl⟩
                    · exact Or.inr ⟨p, by simp [underWay, hp'], e⟩
            | notInPop i =>
              simp only [run1] at hst
              rw [← hst]
              refine key _ _ ?_ rfl
              unfold Fired
              rw [h3]
              exact ⟨rfl, by rw [hbefore]; rfl⟩
            | notInPopRow i =>
              simp only [run1] at hst
              rw [← hst]
              refine key _ _ ?_ rfl
              unfold Fired
              rw [h3]
              exact ⟨rfl, by rw [hbefore]; rfl⟩
            | purgePop =>
              simp only [run1] at hst
              rw [← hst]
              refine key _ _ ?_ rfl
              unfold Fired
              rw [h3]
              exact ⟨rfl, by rw [hbefore]; rfl⟩
            | clear =>
              simp only [run1] at hst
              rw [← hst]
              refine key _ _ ?_ rfl
              unfold Fired
              rw [h3]
              exact ⟨rfl, by rw [hbefore]; rfl⟩
  | found =>
    simp only [requests, List.append_nil]
    simp only [step] at hst
    cases hc : s.current with
    | none => simp [hc] at hst
    | some w =>
      simp only [hc, Option.some.injEq] at hst
      obtain ⟨a, ha, hh⟩ := hs.split
      obtain ⟨hheld, hN, hM, hw1, hw2, hfin⟩ := hs.waits w hc
      have hu : underWay s = [(w.id, .op (.add w.i w.neverInPop w.choose))] := by simp [underWay, hc]
      rw [hu, List.append_assoc, List.singleton_append] at ha
      obtain ⟨_, h2, h3⟩ := locks_split 0 rs a w.id _ s.pending ha
      simp only [Nat.sub_zero] at h2 h3
      have hbefore : after f4 h0 (rs.take w.id) = s.hist := by
        rw [← after_filter, h2, hh]
      have hx : History.add f4 s.hist w.i w.neverInPop w.choose = afterFinder f4 s.hist w := by
        simp only [History.add, hfin, hheld, hN, hM, if_true, if_false, Bool.false_eq_true, afterFinder,
          hw1, hw2]
        rfl
      rw [← hst]
      refine inv_fire (a := a) hs.next ha ?_ ?_ hs.fired ?_
      · unfold Fired
        rw [h3]
        simp only [hfin, if_true, hbefore, hx, and_self]
      · rw [← hh]
        simp [after, ops, History.run, History.step, hx]
      · intro m hm
        rcases hs.all m hm with h | ⟨p, hp', e⟩
        · exact Or.inl h
        · rw [hu, List.singleton_append, List.mem_cons] at hp'
          rcases hp' with rfl | hp'
          · exact Or.inr (Or.inl e.symm)
          · exact Or.inr (Or.inr ⟨p, hp', e⟩)

theorem inv_exec {f4 : PyFloat → PyFloat} {h0 : Hist} {rs : List Req} {s s' : LSt} (es : List Ev)
    (hs : Inv f4 h0 rs s) (hr : exec f4 s es = some s') : Inv f4 h0 (rs ++ requests es) s' := by
  induction es generalizing s rs with
  | nil => simp only [exec, Option.some.injEq] at hr; subst hr; simpa [requests] using hs
  | cons e es ih =>
    simp only [exec] at hr
    cases hst : step f4 s e with
    | none => rw [hst] at hr; simp at hr
    | some s₁ =>
      rw [hst] at hr
      have := ih (inv_step e hs hst) hr
      have he : requests (e :: es) = requests [e] ++ requests es := by cases e <;> simp [requests]
      rw [he, ← List.append_assoc]
      exact this

/-! ## C75 -/

/-- C75: when no request is waiting or under way any more, the history is what it would be if the requested
operations had been carried out one after the other in the order of the calls, whatever the timing. The same
holds when an exception in an `add` has left the lock acquired: nothing then changes any more. -/
theorem C75_request_order (f4 : PyFloat → PyFloat) (h0 : Hist) (es : List Ev) (s : LSt)
    (hr : exec f4 (start h0) es = some s)
    (hidle : (s.current = none ∧ s.pending = []) ∨ s.hist.held = true) :
    s.hist = after f4 h0 (requests es) := by
  have hi := inv_exec es (inv_start f4 h0) hr
  simp only [List.nil_append] at hi
  obtain ⟨a, ha, hh⟩ := hi.split
  have hl : after f4 h0 (requests es) = after f4 h0 ((locks 0 (requests es)).map Prod.snd) := by
    rw [locks_snd, after_filter]
  rcases hidle with ⟨h1, h2⟩ | h1
  · rw [hl, ha]
    simp [underWay, h1, h2, hh]
  · rw [hl, ha, List.map_append, List.map_append, after_append, after_append, ← hh, after_held f4 _ h1,
      after_held f4 _ h1]

/-- C75: at every moment the history is what it would be after carrying out some number `n` of the requests,
in order. -/
theorem C75_always_a_prefix (f4 : PyFloat → PyFloat) (h0 : Hist) (es : List Ev) (s : LSt)
    (hr : exec f4 (start h0) es = some s) :
    ∃ n ≤ (requests es).length, s.hist = after f4 h0 ((requests es).take n) := by
  have hi := inv_exec es (inv_start f4 h0) hr
  simp only [List.nil_append] at hi
  obtain ⟨a, ha, hh⟩ := hi.split
  rw [List.append_assoc] at ha
  cases hb : underWay s ++ s.pending with
  | nil =>
    refine ⟨(requests es).length, le_refl _, ?_⟩
    rw [hb, List.append_nil] at ha
    rw [List.take_length, hh, ← ha, locks_snd, after_filter]
  | cons q b =>
    obtain ⟨m, r⟩ := q
    rw [hb] at ha
    obtain ⟨_, h2, h3⟩ := locks_split 0 _ a m r b ha
    simp only [Nat.sub_zero] at h2 h3
    refine ⟨m, (List.getElem?_eq_some_iff.1 h3).1.le, ?_⟩
    rw [hh, ← h2, after_filter]

/-- C75: when the Deferred of a request fires, every request made before it has taken effect, and no later one;
an `add` fires with the result that the sequential history gives; `shutdown` fires with the history as it is
after all earlier requests. -/
theorem C75_fired (f4 : PyFloat → PyFloat) (h0 : Hist) (es : List Ev) (s : LSt)
    (hr : exec f4 (start h0) es = some s) (m : ℕ) (res : Option Res) (h : Hist)
    (hf : (m, res, h) ∈ s.fired) : Fired f4 h0 (requests es) m res h := by
  have hi := inv_exec es (inv_start f4 h0) hr
  simp only [List.nil_append] at hi
  exact hi.fired _ hf

/-- C75: waiting works. Unless an exception has left the lock acquired, one of the waiting requests can go on
as long as there is one. -/
theorem C75_never_stuck (f4 : PyFloat → PyFloat) (s : LSt) (hh : s.hist.held = false)
    (hw : s.current ≠ none ∨ s.pending ≠ []) :
    (∃ s', step f4 s .begin = some s') ∨ ∃ s', step f4 s .found = some s' := by
  cases hc : s.current with
  | some w => exact Or.inr ⟨_, by simp only [step, hc]; rfl⟩
  | none =>
    cases hp : s.pending with
    | nil => simp [hc, hp] at hw
    | cons q rest => exact Or.inl ⟨_, by simp only [step, hh, hc, hp, Bool.false_eq_true, if_false]; rfl⟩

/-- What is left to do, in events. -/
def left (s : LSt) : ℕ := 2 * s.pending.length + if s.current.isSome then 1 else 0

/-- C75: each event other than a new request brings the end of waiting nearer, so that requests are carried
out after finitely many events. -/
theorem C75_progress (f4 : PyFloat → PyFloat) (s s' : LSt) (e : Ev) (he : e = .begin ∨ e = .found)
    (hst : step f4 s e = some s') : left s' < left s := by
  rcases he with rfl | rfl
  · simp only [step] at hst
    split at hst
    · cases hst
    · cases hc : s.current with
      | some w => simp [hc] at hst
      | none =>
        cases hp : s.pending with
        | nil => simp [hc, hp] at hst
        | cons q rest =>
          obtain ⟨id, r⟩ := q
          simp only [hc, hp, Option.some.injEq] at hst
          subst hst
          cases r with
          | sync => simp [left, run1, fire, hc, hp]
          | op o =>
            cases o with
            | add i nip ch =>
              simp only [run1]
              split
              · simp [left, fire, hc, hp]
              · split
                · simp [left, fire, hc, hp]
                · simp only [left, hc, hp, List.length_cons]; simp; omega
            | _ => simp [left, run1, fire, hc, hp]
  · simp only [step] at hst
    cases hc : s.current with
    | none => simp [hc] at hst
    | some w =>
      simp only [hc, Option.some.injEq] at hst
      subst hst
      simp [left, fire, hc]

/-- C75: no request gets lost: each one has fired, or is under way, or is waiting. -/
theorem C75_none_lost (f4 : PyFloat → PyFloat) (h0 : Hist) (es : List Ev) (s : LSt)
    (hr : exec f4 (start h0) es = some s) (m : ℕ) (hm : m < (requests es).length) :
    (∃ res h, (m, res, h) ∈ s.fired) ∨ (∃ w, s.current = some w ∧ w.id = m) ∨
      ∃ r, (m, r) ∈ s.pending := by
  have hi := inv_exec es (inv_start f4 h0) hr
  simp only [List.nil_append] at hi
  rcases hi.all m (by rw [hi.next]; exact hm) with ⟨p, hp, rfl⟩ | ⟨p, hp, rfl⟩
  · exact Or.inl ⟨p.2.1, p.2.2, hp⟩
  · rw [List.mem_append] at hp
    rcases hp with hp | hp
    · cases hc : s.current with
      | none => simp [underWay, hc] at hp
      | some w =>
        simp only [underWay, hc, List.mem_singleton] at hp
        exact Or.inr (Or.inl ⟨w, rfl, by rw [hp]⟩)
    · exact Or.inr (Or.inr ⟨p.2, hp⟩)

/-! ## Example: a request arrives while the closest-pair finder works -/

/-- An individual with score and value `x`. -/
def demoInd (x : ℚ) : Ind := ⟨.fin x, [.fin x], some 7⟩

/-- A choice of the finder: row 1 if it is considered. -/
def demoChoose (s : Finset ℕ) : Option ℕ := if 1 ∈ s then some 1 else none

/-- Four records fill the roster; the fifth makes the finder work, while `clear` and `shutdown` are called. -/
def demoEvents : List Ev :=
  [.request (.op (.add (demoInd 1) true demoChoose)), .begin,
    .request (.op (.add (demoInd 2) true demoChoose)), .begin,
    .request (.op (.add (demoInd 3) true demoChoose)), .begin,
    .request (.op (.add (demoInd 4) true demoChoose)), .begin,
    .request (.op (.add (demoInd 5) true demoChoose)), .begin,
    .request (.op (.notInPopRow 3)), .request .sync, .request (.op (.add ⟨.pinf, [], none⟩ true demoChoose)),
    .found, .begin, .begin]

example : ((exec id (start (init 4)) demoEvents).map fun s =>
      (s.fired.map fun p => (p.1, p.2.1), s.hist.K, s.pending.length, s.hist.held)) =
    some ([(0, some (.row 0)), (1, some (.row 1)), (2, some (.row 2)), (3, some (.row 3)), (7, some .skipped),
      (4, some (.row 1)), (5, none), (6, none)], [0, 2, 3, 1], 0, false) := by decide +kernel

/-- While the finder works, the next request can not begin. -/
example : ((exec id (start (init 4)) (demoEvents.take 13)).bind fun s => step id s .begin).isSome = false ∧
    ((exec id (start (init 4)) (demoEvents.take 13)).map fun s => s.pending.length) = some 2 := by
  decide +kernel

/-- All requests have been carried out. -/
theorem demo_exec : (exec id (start (init 4)) demoEvents).isSome = true := by decide +kernel

example := C75_request_order id (init 4) demoEvents _ (eq_get demo_exec) (.inl (by decide +kernel))

example := C75_always_a_prefix id (init 4) (demoEvents.take 13) _ (eq_get (by decide +kernel))

/-- The first request fired with its row number. -/
example := C75_fired id (init 4) [.request (.op (.add (demoInd 1) true demoChoose)), .request .sync, .begin]
  _ (eq_get (by decide +kernel)) 0 (some (.row 0)) (History.add id (init 4) (demoInd 1) true demoChoose).1
  (List.mem_of_getElem? (i := 0) (by with_unfolding_all rfl))

example := C75_never_stuck id ((exec id (start (init 4)) (demoEvents.take 13)).get (by decide +kernel))
  (by decide +kernel) (.inr (by
    intro h
    have := congrArg List.length h
    revert this
    decide +kernel))

example := C75_progress id ((exec id (start (init 4)) (demoEvents.take 13)).get (by decide +kernel)) _ .found (.inr rfl)
  (eq_get (by decide +kernel))

end HistoryLock
end Ade
